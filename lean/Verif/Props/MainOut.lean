import Verif.Model.MainOut
import Verif.Props.Timing

/-!
# The main output file during a run (C96, C97)
-/

set_option linter.unusedSectionVars false

namespace PyECLOUD

variable {K : Type} [Field K] [LinearOrder K] [IsStrictOrderedRing K] [FloorRing K] {α : Type}

/-! ## Specification -/

/-- With the time axis `t`, step `k` is the first step of its passage, and the number of the passage plus one is a multiple of
`every`. -/
def DueAtTime (every : ℤ) (bSpac : K) (t : List K) (k : ℕ) : Prop :=
  ∃ t0, t.dropLast[k]? = some t0 ∧ 0 ≤ ⌊t0 / bSpac⌋ ∧ every ∣ ⌊t0 / bSpac⌋ + 1 ∧
    ∀ (j : ℕ) (tj : K), j < k → t[j]? = some tj → ⌊tj / bSpac⌋ < ⌊t0 / bSpac⌋

/-- The file holds the records up to the last step at which it was due. -/
def FileIs (due : ℕ → Prop) (recs : List α) (file : Option (List α)) : Prop :=
  (file = none ∧ ∀ k, ¬ due k) ∨ ∃ k, due k ∧ (∀ j, k < j → ¬ due j) ∧ file = some (recs.take (k + 1))

/-! ## Helper lemmas -/

/-- the same on the beam states of the steps -/
def DueAt (every : ℤ) (tr : List (BeamSt K)) (k : ℕ) : Prop :=
  ∃ b p, tr[k]? = some b ∧ b.newPass = true ∧ b.pass = some p ∧ every ∣ p + 1

theorem dueAt_append (every : ℤ) (tr : List (BeamSt K)) (b : BeamSt K) (k : ℕ) :
    DueAt every (tr ++ [b]) k ↔ (k < tr.length ∧ DueAt every tr k) ∨
      (k = tr.length ∧ b.newPass = true ∧ ∃ p, b.pass = some p ∧ every ∣ p + 1) := by
  unfold DueAt
  rcases lt_trichotomy k tr.length with h | h | h
  · have hne : k ≠ tr.length := by omega
    rw [List.getElem?_append_left h]
    simp [h, hne]
  · subst h
    simp
  · have h1 : ¬ k < tr.length := by omega
    have h2 : k ≠ tr.length := by omega
    rw [List.getElem?_eq_none (by rw [List.length_append, List.length_singleton]; omega)]
    simp [h1, h2]

theorem dueAt_lt (every : ℤ) (tr : List (BeamSt K)) (k : ℕ) (h : DueAt every tr k) : k < tr.length := by
  obtain ⟨b, p, h1, -⟩ := h
  by_contra hc
  rw [List.getElem?_eq_none (by omega)] at h1
  cases h1

/-- records and file after consecutive steps -/
theorem saveMain_fold (every : ℤ) (f : BeamSt K → α) (tr : List (BeamSt K)) (hp : ∀ b ∈ tr, b.pass.isSome = true) :
    ∃ s, tr.foldlM (fun s b => (.ok (saveMain every b (f b) s) : Except PyErr (OutSt α))) ⟨[], none⟩ = .ok s ∧
      s.recs = tr.map f ∧ FileIs (DueAt every tr) s.recs s.file := by
  induction tr using List.reverseRecOn with
  | nil =>
    refine ⟨⟨[], none⟩, rfl, rfl, Or.inl ⟨rfl, ?_⟩⟩
    rintro k ⟨b, p, h, -⟩
    cases h
  | append_singleton tr b ih =>
    obtain ⟨s, h1, h2, h3⟩ := ih (fun x hx => hp x (List.mem_append_left _ hx))
    refine ⟨saveMain every b (f b) s, ?_, ?_, ?_⟩
    · rw [List.foldlM_append, h1]
      rfl
    · simp [saveMain, h2]
    · have hlen : s.recs.length = tr.length := by rw [h2, List.length_map]
      obtain ⟨p, hpb⟩ := Option.isSome_iff_exists.1 (hp b (by simp))
      by_cases hd : b.newPass = true ∧ every ∣ p + 1
      · right
        have hdue : DueAt every (tr ++ [b]) tr.length :=
          (dueAt_append every tr b _).2 (Or.inr ⟨rfl, hd.1, p, hpb, hd.2⟩)
        refine ⟨tr.length, hdue, fun j hj hc => ?_, ?_⟩
        · have := dueAt_lt every _ j hc
          simp at this
          omega
        · have e : (p + 1) % every = 0 := Int.emod_eq_zero_of_dvd hd.2
          have ht : (s.recs ++ [f b]).take (tr.length + 1) = s.recs ++ [f b] := List.take_of_length_le (by simp [hlen])
          simp [saveMain, hpb, hd.1, e, ht]
      · have hf : (saveMain every b (f b) s).file = s.file := by
          unfold saveMain
          have : (b.newPass && decide ((b.pass.getD 0 + 1) % every = 0)) = false := by
            rw [Bool.and_eq_false_iff]
            by_cases hn : b.newPass = true
            · right
              rw [hpb, decide_eq_false_iff_not]
              exact fun hc => hd ⟨hn, Int.dvd_of_emod_eq_zero hc⟩
            · left
              simpa using hn
          simp [this]
        have hnot : ¬ (b.newPass = true ∧ ∃ p, b.pass = some p ∧ every ∣ p + 1) := by
          rintro ⟨a, q, c, d⟩
          rw [hpb] at c
          cases c
          exact hd ⟨a, d⟩
        have hiff : ∀ k, DueAt every (tr ++ [b]) k ↔ DueAt every tr k := by
          intro k
          rw [dueAt_append]
          constructor
          · rintro (⟨-, h⟩ | ⟨-, h⟩)
            · exact h
            · exact absurd h hnot
          · intro h
            exact Or.inl ⟨dueAt_lt every tr k h, h⟩
        rw [hf]
        rcases h3 with ⟨h3, h4⟩ | ⟨k, h3, h4, h5⟩
        · exact Or.inl ⟨h3, fun k hk => h4 k ((hiff k).1 hk)⟩
        · refine Or.inr ⟨k, (hiff k).2 h3, fun j hj hc => h4 j hj ((hiff j).1 hc), ?_⟩
          have := dueAt_lt every tr k h3
          rw [h5]
          congr 1
          show _ = (s.recs ++ [f b]).take (k + 1)
          rw [List.take_append_of_le_length (by omega)]

/-- the states of the steps of a run -/
def outTrace (g : BeamGrid K) : List (BeamSt K) := (List.range' 0 (g.t.length - 1)).map (beamAt g)

theorem outTrace_get (g : BeamGrid K) (k : ℕ) (b : BeamSt K) :
    (outTrace g)[k]? = some b ↔ k < g.t.length - 1 ∧ b = beamAt g k := by
  unfold outTrace
  by_cases h : k < g.t.length - 1
  · rw [List.getElem?_map, List.getElem?_range' h]
    simp [h, eq_comm]
  · rw [List.getElem?_eq_none (by simpa using h)]
    simp [h]

theorem beamAt_newPass (g : BeamGrid K) (hb : 0 < g.bSpac) (ht : g.t.Pairwise (· < ·)) (i : ℕ) (hi : i < g.t.length - 1) :
    (beamAt g i).newPass = true ↔
      0 ≤ passOf g (g.t.getD i 0) ∧ ∀ j < i, passOf g (g.t.getD j 0) < passOf g (g.t.getD i 0) := by
  have hmono : ∀ i j, i ≤ j → j < g.t.length - 1 → passOf g (g.t.getD i 0) ≤ passOf g (g.t.getD j 0) := by
    intro i j hij hj
    rcases Nat.eq_or_lt_of_le hij with rfl | hlt
    · exact le_rfl
    · exact passOf_mono g hb (grid_mono g.t ht i j hlt (by omega)).le
  simp only [beamAt, decide_eq_true_eq]
  by_cases h0 : i = 0
  · subst h0
    simp; omega
  · rw [if_neg h0]
    constructor
    · intro h
      have h1 : (-1 : ℤ) < passOf g (g.t.getD i 0) := lt_of_le_of_lt (le_max_left _ _) h
      refine ⟨by omega, fun j hj => ?_⟩
      exact lt_of_le_of_lt (hmono j (i - 1) (by omega) (by omega)) (lt_of_le_of_lt (le_max_right _ _) h)
    · rintro ⟨h1, h2⟩
      exact max_lt (by omega) (h2 (i - 1) (by omega))

theorem getD_of_get? (t : List K) (j : ℕ) (v : K) (h : t[j]? = some v) : t.getD j 0 = v := by
  rw [List.getD_eq_getElem?_getD, h]
  rfl

theorem dueAt_outTrace (g : BeamGrid K) (hb : 0 < g.bSpac) (ht : g.t.Pairwise (· < ·)) (every : ℤ) (k : ℕ) :
    DueAt every (outTrace g) k ↔ DueAtTime every g.bSpac g.t k := by
  constructor
  · rintro ⟨b, p, h1, h2, h3, h4⟩
    obtain ⟨hk, rfl⟩ := (outTrace_get g k b).1 h1
    obtain ⟨h5, h6⟩ := (beamAt_newPass g hb ht k hk).1 h2
    have hp : p = passOf g (g.t.getD k 0) := (Option.some.inj h3).symm
    subst hp
    refine ⟨g.t.getD k 0, ?_, h5, h4, fun j tj hj htj => ?_⟩
    · rw [List.getElem?_eq_getElem (by simpa using hk), List.getElem_dropLast, List.getD_eq_getElem _ _ (by omega)]
    · have := h6 j hj
      rwa [getD_of_get? g.t j tj htj] at this
  · rintro ⟨t0, h1, h2, h3, h4⟩
    have hk : k < g.t.length - 1 := by
      by_contra hc
      rw [List.getElem?_eq_none (by simpa using hc)] at h1
      cases h1
    have h0 : g.t.getD k 0 = t0 := by
      rw [List.getElem?_eq_getElem (by simpa using hk), List.getElem_dropLast] at h1
      rw [List.getD_eq_getElem _ _ (by omega)]
      exact Option.some.inj h1
    refine ⟨beamAt g k, passOf g (g.t.getD k 0), (outTrace_get g k _).2 ⟨hk, rfl⟩, ?_, rfl, ?_⟩
    · refine (beamAt_newPass g hb ht k hk).2 ⟨by rw [h0]; exact h2, fun j hj => ?_⟩
      rw [h0]
      exact h4 j _ hj (by rw [List.getElem?_eq_getElem (by omega), List.getD_eq_getElem _ _ (by omega)])
    · rw [h0]
      exact h3

theorem outTrace_tt (g : BeamGrid K) : (outTrace g).map (fun b => b.tt) = g.t.dropLast.map some := by
  apply List.ext_getElem?
  intro i
  by_cases h : i < g.t.length - 1
  · rw [List.getElem?_map, (outTrace_get g i _).2 ⟨h, rfl⟩, List.getElem?_map,
      List.getElem?_eq_getElem (by simpa using h), List.getElem_dropLast]
    simp only [Option.map_some, beamAt]
    rw [List.getD_eq_getElem _ _ (by omega)]
  · rw [List.getElem?_eq_none (by simpa [outTrace] using h), List.getElem?_eq_none (by simpa using h)]

theorem outRun_spec (g : BeamGrid K) (hb : 0 < g.bSpac) (ht : g.t.Pairwise (· < ·)) (hl : g.lam.length = g.t.length)
    (every : ℤ) (he : every ≠ 0) (hd : every ∣ nPassTot g.t g.bSpac) :
    ∃ s, outRun g every = .ok s ∧ s.recs = g.t.dropLast.map some ∧ FileIs (DueAtTime every g.bSpac g.t) s.recs s.file := by
  obtain ⟨s, h3, h4, h5⟩ := saveMain_fold every (fun b : BeamSt K => b.tt) (outTrace g) (by
    intro b hm
    obtain ⟨i, hi⟩ := List.mem_iff_getElem?.1 hm
    obtain ⟨-, rfl⟩ := (outTrace_get g i b).1 hi
    rfl)
  have hrun := runLoop_none g hb ht hl (fun b s => .ok (saveMain every b b.tt s)) (g.t.length + 1) 0
    (⟨[], none⟩ : OutSt (Option K)) (by omega) (by omega) (by omega)
  rw [Nat.sub_zero, foldSteps_eq_foldlM] at hrun
  have h3' : ((List.range' 0 (g.t.length - 1)).map (beamAt g)).foldlM
      (fun s b => (.ok (saveMain every b b.tt s) : Except PyErr (OutSt (Option K)))) ⟨[], none⟩ = .ok s := h3
  rw [h3'] at hrun
  refine ⟨s, ?_, h4.trans (outTrace_tt g), ?_⟩
  · have hc : checkMatEvery (nPassTot g.t g.bSpac) every = .ok () := by
      simp [checkMatEvery, he, Int.emod_eq_zero_of_dvd hd]
    have hrun' : runLoop g (fun b s => .ok (saveMain every b b.tt s)) none (g.t.length + 1) BeamSt.init
        (⟨[], none⟩ : OutSt (Option K)) = .ok (beamBefore g (g.t.length - 1), s) := hrun
    simp only [outRun, hc, hrun']
  · have : DueAt every (outTrace g) = DueAtTime every g.bSpac g.t := by
      funext k
      exact propext (dueAt_outTrace g hb ht every k)
    rwa [this] at h5

/-! ## Theorems -/

/-- **C96** in general: a run is refused if `save_mat_every` does not divide the number of passages. Otherwise the records are
those of all steps of the time axis, and the file holds the records up to the last step that starts a passage whose number plus
one is a multiple of `save_mat_every`; there is no file if there was no such step. For every increasing time axis. -/
theorem C96_file_content (g : BeamGrid K) (hb : 0 < g.bSpac) (ht : g.t.Pairwise (· < ·)) (hl : g.lam.length = g.t.length)
    (every : ℤ) :
    (every = 0 → outRun g every = .error .zeroDivision) ∧
    (every ≠ 0 → ¬ every ∣ nPassTot g.t g.bSpac → outRun g every = .error .valueError) ∧
    (every ≠ 0 → every ∣ nPassTot g.t g.bSpac →
      ∃ s, outRun g every = .ok s ∧ s.recs = g.t.dropLast.map some ∧
        FileIs (DueAtTime every g.bSpac g.t) s.recs s.file) := by
  refine ⟨fun h => ?_, fun h1 h2 => ?_, outRun_spec g hb ht hl every⟩
  · subst h
    simp [outRun, checkMatEvery]
  · have : ¬ nPassTot g.t g.bSpac % every = 0 := fun hc => h2 (Int.dvd_of_emod_eq_zero hc)
    simp [outRun, checkMatEvery, h1, this]

/-- **C96**, the part that holds: with a bunched beam, no extra time after the last bunch slot and at least two time steps
per bunch slot, the main output file at the end of the run holds the records of all time steps, for every value of
`save_mat_every` that is accepted. With extra time this is false: `C96_violated`. -/
theorem C96_complete_partial (nB : ℕ) (bSpac dt : K) (hdt : 0 < dt) (hb : 2 * dt ≤ bSpac) (lam : List K)
    (hl : lam.length = (timeGrid nB bSpac 0 dt).length) (every : ℤ) (s : OutSt (Option K))
    (hs : outRun ⟨timeGrid nB bSpac 0 dt, lam, bSpac, true⟩ every = .ok s) :
    s.recs = (timeGrid nB bSpac 0 dt).dropLast.map some ∧ s.file = some s.recs := by
  have hb0 : 0 < bSpac := by linarith
  set t := timeGrid nB bSpac 0 dt with htdef
  obtain ⟨h2, hget, hmono, -, -⟩ := C64_time_grid nB bSpac 0 dt hdt hb0 le_rfl
  rw [← htdef] at h2 hget hmono
  obtain ⟨hz, hv, hok⟩ := C96_file_content (⟨t, lam, bSpac, true⟩ : BeamGrid K) hb0 hmono hl every
  have he : every ≠ 0 := by
    intro hc
    rw [hz hc] at hs
    cases hs
  have hdv : every ∣ nPassTot t bSpac := by
    by_contra hc
    rw [hv he hc] at hs
    cases hs
  obtain ⟨s', h3, h4, h5⟩ := hok he hdv
  rw [hs] at h3
  cases h3
  refine ⟨h4, ?_⟩
  -- the last step is the first of passage `nB`, the last one of the run
  have hlenZ : (t.length : ℤ) = ⌈((nB : K) * bSpac + 0 + 2 * dt) / dt⌉ := by
    have : t.length = ⌈((nB : K) * bSpac + 0 + 2 * dt) / dt⌉.toNat := by simp [htdef, timeGrid, arange]
    omega
  have hup : (t.length : K) * dt < (nB : K) * bSpac + 3 * dt := by
    have h := Int.ceil_lt_add_one (((nB : K) * bSpac + 0 + 2 * dt) / dt)
    rw [← hlenZ, Int.cast_natCast, ← sub_lt_iff_lt_add, lt_div_iff₀ hdt] at h
    linarith
  have hlo : (nB : K) * bSpac + 2 * dt ≤ (t.length : K) * dt := by
    have h := Int.le_ceil (((nB : K) * bSpac + 0 + 2 * dt) / dt)
    rw [← hlenZ, Int.cast_natCast, div_le_iff₀ hdt] at h
    linarith
  have hnth : ∀ i, i < t.length → t[i]? = some ((i : K) * dt) := by
    intro i hi
    have := hget i t[i] (List.getElem?_eq_getElem hi)
    rw [List.getElem?_eq_getElem hi, this]
  have c1 : ((t.length - 1 : ℕ) : K) = (t.length : K) - 1 := by rw [Nat.cast_sub (by omega)]; norm_num
  have c2 : ((t.length - 2 : ℕ) : K) = (t.length : K) - 2 := by rw [Nat.cast_sub (by omega)]; norm_num
  have hlast : t.getLastD 0 = ((t.length : K) - 1) * dt := by
    have hne : t ≠ [] := by
      intro h0
      rw [h0] at h2
      simp at h2
    rw [List.getLastD_eq_getLast?, List.getLast?_eq_getElem?, hnth _ (by omega), c1]
    rfl
  have hN : nPassTot t bSpac = (nB : ℤ) + 1 := by
    unfold nPassTot
    rw [hlast, Int.ceil_eq_iff]
    push_cast
    constructor
    · rw [lt_div_iff₀ hb0]
      linarith
    · rw [div_le_iff₀ hb0]
      linarith
  have hfl : ⌊((t.length : K) - 2) * dt / bSpac⌋ = (nB : ℤ) := by
    rw [Int.floor_eq_iff]
    push_cast
    constructor
    · rw [le_div_iff₀ hb0]
      linarith
    · rw [div_lt_iff₀ hb0]
      linarith
  have hdue : DueAtTime every bSpac t (t.length - 2) := by
    refine ⟨((t.length : K) - 2) * dt, ?_, ?_, ?_, ?_⟩
    · rw [List.getElem?_dropLast, if_pos (by omega), hnth _ (by omega), c2]
    · rw [hfl]
      omega
    · rw [hfl, ← hN]
      exact hdv
    · intro j tj hj htj
      rw [hget j tj htj, hfl, Int.floor_lt, div_lt_iff₀ hb0]
      have : (j : K) + 1 ≤ (t.length : K) - 2 := by
        rw [← c2]
        exact_mod_cast hj
      have h6 : ((j : K) + 1) * dt ≤ ((t.length : K) - 2) * dt := mul_le_mul_of_nonneg_right this hdt.le
      push_cast
      linarith
  rcases h5 with ⟨-, h5⟩ | ⟨k, h6, h7, h8⟩
  · exact absurd hdue (h5 _)
  · have hk : k < t.length - 1 := by
      obtain ⟨t0, h9, -⟩ := h6
      by_contra hc
      rw [List.getElem?_eq_none (by simpa using hc)] at h9
      cases h9
    have hk2 : ¬ k < t.length - 2 := fun hc => h7 _ hc hdue
    rw [h8]
    congr 1
    refine List.take_of_length_le ?_
    rw [h4]
    simp
    omega

/-- three bunch slots of 4 steps each, file written every second of the 4 passages: the file is complete -/
example : ∃ r, outRun (⟨timeGrid 3 (4 : ℚ) 0 1, List.replicate 14 0, 4, true⟩ : BeamGrid ℚ) 2 = .ok r ∧
    r.recs.length = 13 ∧ r.file = some r.recs := exists_ok (by decide +kernel)

/-- with extra time the file at the end can miss the last steps -/
example : ∃ r, outRun (⟨timeGrid 1 (4 : ℚ) 2 1, List.replicate 8 0, 4, true⟩ : BeamGrid ℚ) 2 = .ok r ∧
    r.recs.length = 7 ∧ r.file = some (r.recs.take 5) := exists_ok (by decide +kernel)

/-- **C96** is violated: an accepted run that writes no output file at all. The number of passages, 3, counts a passage that
would start after the last time step; with `save_mat_every = 3` the file is due in it only. -/
theorem C96_violated : ∃ r, outRun (⟨timeGrid 1 (17 / 4 : ℚ) 3 1, List.replicate 10 0, 17 / 4, true⟩ : BeamGrid ℚ) 3 = .ok r ∧
    r.recs.length = 9 ∧ r.file = none := exists_ok (by decide +kernel)

/-! ## The stop file -/

/-- At this step cloud `k` finds the stop file, the first cloud to do so. -/
def StopsAt (e : BeamSt K × (ℕ → Bool) × List α) (k : ℕ) : Prop :=
  e.1.newPass = true ∧ e.2.1 k = true ∧ ∀ j < k, e.2.1 j = false

theorem outClouds_spec (every : ℤ) (b : BeamSt K) (stop : ℕ → Bool) (l : List (OutSt α × α)) (k : ℕ) :
    ((outClouds every b stop k l).2 = false ∧ (outClouds every b stop k l).1 = l.map (fun q => saveMain every b q.2 q.1) ∧
      ∀ j < l.length, (b.newPass && stop (k + j)) = false) ∨
    ((outClouds every b stop k l).2 = true ∧ ∃ j < l.length, b.newPass = true ∧ stop (k + j) = true ∧
      (∀ i < j, stop (k + i) = false) ∧
      (outClouds every b stop k l).1 = (l.take (j + 1)).map (fun q => saveMain every b q.2 q.1) ++ (l.drop (j + 1)).map Prod.fst) := by
  induction l generalizing k with
  | nil => exact Or.inl ⟨rfl, rfl, fun j hj => absurd hj (by simp)⟩
  | cons q l ih =>
    obtain ⟨s, r⟩ := q
    by_cases h : (b.newPass && stop k) = true
    · right
      simp only [outClouds, h, if_true]
      have h' := h
      rw [Bool.and_eq_true] at h'
      exact ⟨trivial, 0, by simp, h'.1, h'.2, fun i hi => absurd hi (by omega), by simp⟩
    · have h' : (b.newPass && stop k) = false := by simpa using h
      simp only [outClouds, h', Bool.false_eq_true, if_false]
      rcases ih (k + 1) with ⟨h1, h2, h3⟩ | ⟨h1, j, h2, h3, h4, h5, h6⟩
      · left
        refine ⟨h1, by rw [h2]; rfl, fun j hj => ?_⟩
        cases j with
        | zero => simpa using h'
        | succ j =>
          have := h3 j (by simpa using hj)
          rwa [show k + 1 + j = k + (j + 1) by omega] at this
      · right
        refine ⟨h1, j + 1, by simpa using h2, h3, by rwa [show k + (j + 1) = k + 1 + j by omega], fun i hi => ?_, ?_⟩
        · cases i with
          | zero => simpa [h3] using h'
          | succ i => rw [show k + (i + 1) = k + 1 + i by omega]; exact h5 i (by omega)
        · rw [h6]
          rfl

theorem outClouds_length (every : ℤ) (b : BeamSt K) (stop : ℕ → Bool) (l : List (OutSt α × α)) (k : ℕ) :
    (outClouds every b stop k l).1.length = l.length := by
  rcases outClouds_spec every b stop l k with ⟨-, h, -⟩ | ⟨-, j, hj, -, -, -, h⟩
  · rw [h, List.length_map]
  · rw [h, List.length_append, List.length_map, List.length_map, List.length_take, List.length_drop]
    omega

/-- **C97**, when a run is stopped: a run makes all its steps if no cloud finds the stop file at the start of a passage.
Otherwise it ends in the first step in which one does. -/
theorem C97_stop (every : ℤ) (steps : List (BeamSt K × (ℕ → Bool) × List α)) (s : List (OutSt α))
    (hr : ∀ e ∈ steps, e.2.2.length = s.length) :
    ((∀ e ∈ steps, ∀ k < s.length, ¬ StopsAt e k) →
      (outSteps every steps s).1 = steps.length ∧ (outSteps every steps s).2.2 = false) ∧
    ∀ (n k : ℕ) (e : BeamSt K × (ℕ → Bool) × List α), steps[n]? = some e → k < s.length → StopsAt e k →
      (∀ e' ∈ steps.take n, ∀ j < s.length, ¬ StopsAt e' j) →
      (outSteps every steps s).1 = n + 1 ∧ (outSteps every steps s).2.2 = true := by
  induction steps generalizing s with
  | nil => exact ⟨fun _ => ⟨rfl, rfl⟩, fun n k e h => by simp at h⟩
  | cons e0 l ih =>
    have hz : (s.zip e0.2.2).length = s.length := by rw [List.length_zip, hr e0 (by simp), Nat.min_self]
    have hlen : (outClouds every e0.1 e0.2.1 0 (s.zip e0.2.2)).1.length = s.length := by rw [outClouds_length, hz]
    have ih' := ih (outClouds every e0.1 e0.2.1 0 (s.zip e0.2.2)).1 (fun e he => by rw [hlen]; exact hr e (by simp [he]))
    rw [hlen] at ih'
    -- a step without the stop file goes on
    have hgo : (∀ k < s.length, ¬ StopsAt e0 k) → (outClouds every e0.1 e0.2.1 0 (s.zip e0.2.2)).2 = false := by
      intro h
      rcases outClouds_spec every e0.1 e0.2.1 (s.zip e0.2.2) 0 with ⟨h1, -⟩ | ⟨-, j, hj, h1, h2, h3, -⟩
      · exact h1
      · simp only [Nat.zero_add] at h2 h3
        exact absurd ⟨h1, h2, h3⟩ (h j (by omega))
    constructor
    · intro h
      have h0 := hgo (h e0 (by simp))
      have := ih'.1 (fun e he => h e (by simp [he]))
      simp only [outSteps, h0, Bool.false_eq_true, if_false]
      exact ⟨by rw [this.1]; rfl, this.2⟩
    · intro n k e hn hk hs hbef
      cases n with
      | zero =>
        have : e0 = e := by simpa using hn
        subst this
        have h0 : (outClouds every e0.1 e0.2.1 0 (s.zip e0.2.2)).2 = true := by
          rcases outClouds_spec every e0.1 e0.2.1 (s.zip e0.2.2) 0 with ⟨-, -, h1⟩ | ⟨h1, -⟩
          · have := h1 k (by omega)
            simp [hs.1, hs.2.1] at this
          · exact h1
        simp only [outSteps, h0, if_true]
        exact ⟨trivial, trivial⟩
      | succ n =>
        have h0 := hgo (hbef e0 (by simp))
        have := ih'.2 n k e (by simpa using hn) hk hs (fun e' he' => hbef e' (by simp [he']))
        simp only [outSteps, h0, Bool.false_eq_true, if_false]
        exact ⟨by rw [this.1], this.2⟩

/-- records of cloud `i` in the given steps -/
def cloudRecs (i : ℕ) (steps : List (BeamSt K × (ℕ → Bool) × List α)) : List α := steps.filterMap (fun e => e.2.2[i]?)

/-- **C97**, what is recorded: when cloud `k` finds the stop file in step `n`, the clouds up to `k` have the records of the steps
up to `n` included, the clouds after `k` those before `n`. The main output file of the clouds up to `k` is complete if it was due
in this step. -/
theorem C97_records (every : ℤ) (steps : List (BeamSt K × (ℕ → Bool) × List α)) (s : List (OutSt α))
    (hr : ∀ e ∈ steps, e.2.2.length = s.length) (n k : ℕ) (e : BeamSt K × (ℕ → Bool) × List α) (hn : steps[n]? = some e)
    (hk : k < s.length) (hs : StopsAt e k) (hbef : ∀ e' ∈ steps.take n, ∀ j < s.length, ¬ StopsAt e' j)
    (i : ℕ) (si : OutSt α) (hi : s[i]? = some si) :
    ∃ o, (outSteps every steps s).2.1[i]? = some o ∧
      (i ≤ k → o.recs = si.recs ++ cloudRecs i (steps.take (n + 1)) ∧
        ∀ p, e.1.pass = some p → every ∣ p + 1 → o.file = some o.recs) ∧
      (k < i → o.recs = si.recs ++ cloudRecs i (steps.take n)) := by
  induction steps generalizing s n si with
  | nil => simp at hn
  | cons e0 l ih =>
    have hz : (s.zip e0.2.2).length = s.length := by rw [List.length_zip, hr e0 (by simp), Nat.min_self]
    have hil : i < s.length := by
      by_contra hc
      rw [List.getElem?_eq_none (by omega)] at hi
      cases hi
    obtain ⟨ri, hri⟩ : ∃ ri, e0.2.2[i]? = some ri :=
      ⟨_, List.getElem?_eq_getElem (by rw [hr e0 (by simp)]; exact hil)⟩
    have hzi : (s.zip e0.2.2)[i]? = some (si, ri) := by
      rw [List.getElem?_zip_eq_some]
      exact ⟨hi, hri⟩
    have hsp := outClouds_spec every e0.1 e0.2.1 (s.zip e0.2.2) 0
    simp only [Nat.zero_add] at hsp
    cases n with
    | zero =>
      have : e0 = e := by simpa using hn
      subst this
      rcases hsp with ⟨-, -, h1⟩ | ⟨h1, j, hj, h2, h3, h4, h5⟩
      · have := h1 k (by omega)
        simp [hs.1, hs.2.1] at this
      · have hjk : j = k := by
          rcases lt_trichotomy j k with h | h | h
          · rw [hs.2.2 j h] at h3; cases h3
          · exact h
          · have := h4 k h; rw [hs.2.1] at this; cases this
        subst hjk
        simp only [outSteps, h1, if_true, h5]
        have hlt : ((s.zip e0.2.2).take (j + 1)).length = j + 1 := by rw [List.length_take]; omega
        by_cases hij : i ≤ j
        · refine ⟨saveMain every e0.1 ri si, ?_, fun _ => ⟨?_, fun p hp hd => ?_⟩, fun h => absurd h (by omega)⟩
          · rw [List.getElem?_append_left (by rw [List.length_map, hlt]; omega), List.getElem?_map, List.getElem?_take,
              if_pos (by omega), hzi]
            rfl
          · simp [saveMain, cloudRecs, hri]
          · simp [saveMain, h2, hp, Int.emod_eq_zero_of_dvd hd]
        · refine ⟨si, ?_, fun h => absurd h hij, fun _ => by simp [cloudRecs]⟩
          rw [List.getElem?_append_right (by rw [List.length_map, hlt]; omega), List.length_map, hlt, List.getElem?_map,
            List.getElem?_drop, show j + 1 + (i - (j + 1)) = i by omega, hzi]
          rfl
    | succ n =>
      rcases hsp with ⟨h1, h2, -⟩ | ⟨-, j, hj, h2, h3, h4, -⟩
      · have hlen : (outClouds every e0.1 e0.2.1 0 (s.zip e0.2.2)).1.length = s.length := by rw [outClouds_length, hz]
        obtain ⟨o, ho, h5, h6⟩ := ih (outClouds every e0.1 e0.2.1 0 (s.zip e0.2.2)).1
          (fun e he => by rw [hlen]; exact hr e (by simp [he])) n (by simpa using hn) (by omega)
          (fun e' he' j hj => hbef e' (by simp [he']) j (by omega)) (saveMain every e0.1 ri si)
          (by rw [h2, List.getElem?_map, hzi]; rfl)
        refine ⟨o, ?_, fun h => ⟨?_, (h5 h).2⟩, fun h => ?_⟩
        · simp only [outSteps, h1, Bool.false_eq_true, if_false]
          exact ho
        · rw [(h5 h).1]
          simp [saveMain, cloudRecs, hri]
        · rw [h6 h]
          simp [saveMain, cloudRecs, hri]
      · exact absurd ⟨h2, h3, h4⟩ (hbef e0 (by simp) j (by omega))

/-- **C97** for a simulation with a single cloud and `save_mat_every = 1`: when it is stopped by the user, its main output file
holds the records of all steps made. With several clouds this is false: `C97_violated`. -/
theorem C97_single_partial (steps : List (BeamSt K × (ℕ → Bool) × List α)) (s0 : OutSt α)
    (hr : ∀ e ∈ steps, e.2.2.length = 1) (hp : ∀ e ∈ steps, e.1.pass.isSome = true)
    (hstop : (outSteps 1 steps [s0]).2.2 = true) :
    ∃ o, (outSteps 1 steps [s0]).2.1[0]? = some o ∧
      o.recs = s0.recs ++ cloudRecs 0 (steps.take (outSteps 1 steps [s0]).1) ∧ o.file = some o.recs := by
  classical
  obtain ⟨h1, h2⟩ := C97_stop 1 steps [s0] (by simpa using hr)
  by_cases hall : ∀ e ∈ steps, ¬ StopsAt e 0
  · have := (h1 (fun e he k hk => by
      have : k = 0 := by simpa using hk
      subst this
      exact hall e he)).2
    rw [this] at hstop
    cases hstop
  · have hex : ∃ (n : ℕ), ∃ e, steps[n]? = some e ∧ StopsAt e 0 := by
      push Not at hall
      obtain ⟨e, he, hse⟩ := hall
      obtain ⟨n, hn⟩ := List.mem_iff_getElem?.1 he
      exact ⟨n, e, hn, hse⟩
    obtain ⟨e, hn, hse⟩ := Nat.find_spec hex
    have hbef : ∀ e' ∈ steps.take (Nat.find hex), ∀ j < ([s0] : List (OutSt α)).length, ¬ StopsAt e' j := by
      intro e' he' j hj hc
      have : j = 0 := by simpa using hj
      subst this
      obtain ⟨m, hm⟩ := List.mem_iff_getElem?.1 he'
      rw [List.getElem?_take] at hm
      by_cases hml : m < Nat.find hex
      · rw [if_pos hml] at hm
        exact Nat.find_min hex hml ⟨e', hm, hc⟩
      · rw [if_neg hml] at hm
        cases hm
    have hcnt := (h2 _ 0 e hn (by simp) hse hbef).1
    obtain ⟨o, h3, h4, -⟩ := C97_records 1 steps [s0] (by simpa using hr) _ 0 e hn (by simp) hse hbef 0 s0 rfl
    obtain ⟨p, hpe⟩ := Option.isSome_iff_exists.1 (hp e (List.mem_of_getElem? hn))
    refine ⟨o, h3, ?_, (h4 le_rfl).2 p hpe (one_dvd _)⟩
    rw [hcnt]
    exact (h4 le_rfl).1

/-- two clouds; the stop file appears during the second passage -/
def exStops : List (BeamSt ℚ × (ℕ → Bool) × List ℕ) :=
  [(⟨0, some 0, some 1, some 0, some 0, 0, true⟩, fun _ => false, [10, 20]),
   (⟨1, some 1, some 1, some 0, some 0, 0, false⟩, fun _ => true, [11, 21]),
   (⟨2, some 2, some 1, some 0, some 1, 1, true⟩, fun _ => true, [12, 22]),
   (⟨3, some 3, some 1, some 0, some 1, 1, false⟩, fun _ => true, [13, 23])]

/-- the first cloud alone: stopped in step 2, everything saved -/
example : outSteps 1 (exStops.map (fun e => (e.1, e.2.1, e.2.2.take 1))) [⟨[], none⟩]
    = (3, [⟨[10, 11, 12], some [10, 11, 12]⟩], true) := by decide +kernel

/-- **C97** is violated with two clouds: the first cloud stops the run before the second has recorded the step and written its
file, so the outputs of the two clouds end at different times. -/
theorem C97_violated : ∃ (steps : List (BeamSt ℚ × (ℕ → Bool) × List ℕ)) (o1 o2 : OutSt ℕ),
    outSteps 1 steps [⟨[], none⟩, ⟨[], none⟩] = (3, [o1, o2], true) ∧ o1.recs.length = 3 ∧ o1.file = some o1.recs ∧
      o2.recs.length = 2 ∧ o2.file = some (o2.recs.take 1) :=
  ⟨exStops, ⟨[10, 11, 12], some [10, 11, 12]⟩, ⟨[20, 21], some [20]⟩, by decide +kernel⟩

end PyECLOUD
