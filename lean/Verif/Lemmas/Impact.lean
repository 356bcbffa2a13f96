import Verif.Spec.Impact
import Verif.Lemmas.MPCap
import Verif.Lemmas.Hist
import Verif.Lemmas.Grid

set_option linter.unusedSectionVars false

namespace PyECLOUD

theorem bind_ok {ε α β : Type} {x : Except ε α} {f : α → Except ε β} {b : β} (h : (x >>= f) = .ok b) :
    ∃ a, x = .ok a ∧ f a = .ok b := by
  cases x with
  | error e => cases h
  | ok a => exact ⟨a, rfl, h⟩

theorem maskPut_length {α : Type} (l : List α) (m : List Bool) (v : List α) : (maskPut l m v).length = l.length := by
  induction l generalizing m v with
  | nil => cases m with
    | nil => simp [maskPut]
    | cons b m => cases b <;> cases v <;> simp [maskPut]
  | cons a l ih =>
    cases m with
    | nil => cases v <;> simp [maskPut]
    | cons b m => cases b <;> cases v <;> simp [maskPut, ih]

theorem maskPut_nil_left {α : Type} (m : List Bool) (v : List α) : maskPut ([] : List α) m v = [] :=
  List.length_eq_zero_iff.1 (by rw [maskPut_length]; rfl)

theorem maskPut_map {α β : Type} (f : α → β) (l : List α) (m : List Bool) (v : List α) :
    (maskPut l m v).map f = maskPut (l.map f) m (v.map f) := by
  induction l generalizing m v with
  | nil => simp [maskPut_nil_left]
  | cons a l ih =>
    cases m with
    | nil => cases v <;> simp [maskPut]
    | cons b m => cases b <;> cases v <;> simp [maskPut, ih]

theorem maskPut_replicate_false {α : Type} (l : List α) (n : ℕ) (v : List α) :
    maskPut l (List.replicate n false) v = l := by
  induction l generalizing n with
  | nil => simp [maskPut_nil_left]
  | cons a l ih =>
    cases n with
    | zero => cases v <;> simp [maskPut]
    | succ n => cases v <;> simp [maskPut, List.replicate_succ, ih]

theorem maskPut_append {α : Type} (l l' : List α) (m m' : List Bool) (v : List α) (h : m.length = l.length)
    (hv : v.length = countTrue m) :
    maskPut (l ++ l') (m ++ m') v = maskPut l m v ++ maskPut l' m' [] := by
  induction l generalizing m v with
  | nil =>
    have hm : m = [] := by simpa using h
    subst hm
    have : v = [] := by simpa [countTrue] using hv
    subst this
    simp [maskPut_nil_left]
  | cons a l ih =>
    cases m with
    | nil => simp at h
    | cons b m =>
      cases b with
      | false =>
        have := ih m v (by simpa using h) (by simpa [countTrue] using hv)
        cases v <;> simp [maskPut, this]
      | true =>
        cases v with
        | nil => simp [countTrue] at hv
        | cons w v =>
          have := ih m v (by simpa using h) (by simpa [countTrue] using hv)
          simp [maskPut, this]

theorem maskPut_mem {α : Type} (l : List α) (m : List Bool) (v : List α) (hv : v.length = countTrue m)
    (x : α) (hx : x ∈ maskPut l m v) : x ∈ v ∨ ∃ i, l[i]? = some x ∧ m.getD i false = false := by
  induction l generalizing m v with
  | nil => simp [maskPut_nil_left] at hx
  | cons a l ih =>
    cases m with
    | nil =>
      have hx' : x ∈ a :: l := by cases v <;> simpa [maskPut] using hx
      obtain ⟨i, hi⟩ := List.mem_iff_getElem?.1 hx'
      exact Or.inr ⟨i, hi, by simp⟩
    | cons b m =>
      cases b with
      | false =>
        have hx' : x = a ∨ x ∈ maskPut l m v := by cases v <;> simpa [maskPut] using hx
        rcases hx' with rfl | hx'
        · exact Or.inr ⟨0, by simp, by simp⟩
        · rcases ih m v (by simpa [countTrue] using hv) hx' with h | ⟨i, h1, h2⟩
          · exact Or.inl h
          · exact Or.inr ⟨i + 1, by simpa using h1, by simpa using h2⟩
      | true =>
        cases v with
        | nil => simp [countTrue] at hv
        | cons w v =>
          have hx' : x = w ∨ x ∈ maskPut l m v := by simpa [maskPut] using hx
          rcases hx' with rfl | hx'
          · exact Or.inl (by simp)
          · rcases ih m v (by simpa [countTrue] using hv) hx' with h | ⟨i, h1, h2⟩
            · exact Or.inl (by simp [h])
            · exact Or.inr ⟨i + 1, by simpa using h1, by simpa using h2⟩

theorem maskPut_getElem? {α : Type} (l : List α) (m : List Bool) (v : List α) (i : ℕ)
    (h : m.getD i false = false) : (maskPut l m v)[i]? = l[i]? := by
  induction l generalizing m v i with
  | nil => simp [maskPut_nil_left]
  | cons a l ih =>
    cases m with
    | nil => cases v <;> simp [maskPut]
    | cons b m =>
      cases i with
      | zero =>
        have : b = false := by simpa using h
        subst this
        cases v <;> simp [maskPut]
      | succ i =>
        have h' : m.getD i false = false := by simpa using h
        cases b <;> cases v <;> simp [maskPut, ih m _ i h']

/-- replacing the masked entries changes a sum by the new minus the old masked entries -/
theorem maskPut_sum {K : Type} [Field K] (l : List K) (m : List Bool) (v : List K) (h : m.length = l.length)
    (hv : v.length = countTrue m) : (maskPut l m v).sum = l.sum - (maskSel l m).sum + v.sum := by
  induction l generalizing m v with
  | nil =>
    have hm : m = [] := by simpa using h
    subst hm
    have : v = [] := by simpa [countTrue] using hv
    subst this
    simp [maskPut]
  | cons a l ih =>
    cases m with
    | nil => simp at h
    | cons b m =>
      cases b with
      | false =>
        have := ih m v (by simpa using h) (by simpa [countTrue] using hv)
        cases v <;> simp [maskPut, maskSel, this] <;> ring
      | true =>
        cases v with
        | nil => simp [countTrue] at hv
        | cons w v =>
          have := ih m v (by simpa using h) (by simpa [countTrue] using hv)
          simp [maskPut, maskSel, this]; ring

variable {K : Type} [Field K] [LinearOrder K]

/-- the impact mask restricted to the live macroparticles -/
def outMask (s : MPs K) (ch : Chamber K) : List Bool := s.live.map ch.out

theorem outMask_length (s : MPs K) (ch : Chamber K) : (outMask s ch).length = s.nmp := by simp [outMask]

theorem impactMask_eq (s : MPs K) (ch : Chamber K) : s.impactMask ch.outside = fullMask s (outMask s ch) := by
  unfold MPs.impactMask fullMask outMask MPs.live MPs.cap
  rw [List.map_map]
  rfl

theorem countTrue_outMask (s : MPs K) (ch : Chamber K) :
    countTrue (outMask s ch) = (s.live.filter ch.out).length := by
  unfold outMask countTrue
  rw [List.count_eq_countP, List.countP_map, List.countP_eq_length_filter]
  congr 2
  funext p
  simp

/-- all attributes of the live slots, tracked or not -/
def rawLive (s : MPs K) : List (Particle K) := (List.range s.nmp).map (fun i f => (s.arr f).getD i 0)

theorem maskSel_rows (s : MPs K) (h : s.WF) (ch : Chamber K) :
    maskSel s.rows (fullMask s (outMask s ch)) = maskSel (rawLive s) (outMask s ch) := by
  have hr : s.rows.take s.nmp = rawLive s := by
    unfold MPs.rows rawLive
    rw [← List.map_take, List.take_range]
    have := h.fits
    rw [show (s.arr .x).length = s.cap from rfl, Nat.min_eq_left this]
  unfold fullMask
  rw [maskSel_prefix, outMask_length, hr]
  rw [outMask_length]
  have := h.fits
  simpa [MPs.rows, MPs.cap] using this

/-- forget the untracked last-impact time -/
def trackP (s : MPs K) (p : Particle K) : Particle K := fun f => if s.tracked f then p f else -1

theorem live_rawLive (s : MPs K) : s.live = (rawLive s).map (trackP s) := by
  unfold MPs.live rawLive
  rw [List.map_map]
  rfl

theorem mkImpact_track (s : MPs K) (sq : K → K) (ke : K) (p : Particle K) (hh : Hit K) :
    mkImpact sq ke (trackP s p) hh = mkImpact sq ke p hh := rfl

theorem rows_sel (s : MPs K) (h : s.WF) (ch : Chamber K) :
    (maskSel s.rows (s.impactMask ch.outside)).map (trackP s) = s.live.filter ch.out := by
  rw [impactMask_eq, maskSel_rows s h, maskSel_map, ← live_rawLive]
  exact maskSel_map_self _ _

theorem maskPut_fullMask (s : MPs K) (h : s.WF) (f : Fld) (k : List Bool) (hk : k.length = s.nmp) (v : List K)
    (hv : v.length = countTrue k) :
    (maskPut (s.arr f) (fullMask s k) v).take s.nmp = maskPut ((s.arr f).take s.nmp) k v := by
  have hf := h.fits
  have hl : ((s.arr f).take s.nmp).length = s.nmp := by
    rw [List.length_take, h.len]; omega
  conv_lhs => rw [← List.take_append_drop s.nmp (s.arr f)]
  unfold fullMask
  rw [maskPut_append _ _ _ _ _ (by rw [hl, hk]) hv]
  apply List.take_left'
  rw [maskPut_length, hl]

theorem Emit.fld_particle (e : Emit K) (b : Bool) (tt : K) (f : Fld) (hf : f ≠ .tl) :
    e.particle b tt f = e.fld f := by cases f <;> first | rfl | exact absurd rfl hf

theorem replaceHits_wf (s : MPs K) (h : s.WF) (m : List Bool) (rep : List (Emit K)) (tt : K) :
    (s.replaceHits m rep tt).WF ∧ (s.replaceHits m rep tt).cap = s.cap := by
  have hl : ∀ f, ((s.replaceHits m rep tt).arr f).length = s.cap := by
    intro f
    unfold MPs.replaceHits
    dsimp only
    by_cases hf : f = .tl
    · rw [if_pos hf]
      subst hf
      split
      · rw [maskPut_length, h.len]
      · exact h.len _
    · rw [if_neg hf, maskPut_length, h.len]
  have hc : (s.replaceHits m rep tt).cap = s.cap := hl .x
  exact ⟨⟨fun f => by rw [hc]; exact hl f, by rw [hc]; exact h.fits⟩, hc⟩

theorem maskPut_replicate {α : Type} (l : List α) (m : List Bool) (a : α) (h : ∀ x ∈ l, x = a) (n : ℕ) :
    maskPut l m (List.replicate n a) = l := by
  induction l generalizing m n with
  | nil => simp [maskPut_nil_left]
  | cons b l ih =>
    have hb : b = a := h b (by simp)
    have ih' := fun m n => ih m (fun x hx => h x (by simp [hx])) n
    cases m with
    | nil => cases n <;> simp [maskPut]
    | cons c m =>
      cases n with
      | zero =>
        have := ih' m 0
        rw [List.replicate_zero] at this ⊢
        cases c <;> simp [maskPut, this]
      | succ n =>
        cases c with
        | false => have := ih' m (n + 1); simp [maskPut, this, List.replicate_succ] at this ⊢
        | true => simp [maskPut, List.replicate_succ, ih', hb]

theorem replaceHits_live (s : MPs K) (h : s.WF) (ch : Chamber K) (rep : List (Emit K)) (tt : K)
    (hr : rep.length = countTrue (outMask s ch)) :
    (s.replaceHits (s.impactMask ch.outside) rep tt).live =
      maskPut s.live (outMask s ch) (rep.map (Emit.particle s.lifetime tt)) := by
  obtain ⟨hw, hcap⟩ := replaceHits_wf s h (s.impactMask ch.outside) rep tt
  apply particles_ext
  intro f
  rw [live_col _ f (by rw [hw.len]; exact hw.fits), maskPut_map, live_col s f (by rw [h.len]; exact h.fits)]
  have hn : (s.replaceHits (s.impactMask ch.outside) rep tt).nmp = s.nmp := rfl
  have ht : (s.replaceHits (s.impactMask ch.outside) rep tt).tracked f = s.tracked f := rfl
  rw [hn, ht, List.map_map]
  have hk := outMask_length s ch
  by_cases hf : f = .tl
  · subst hf
    by_cases hlt : s.lifetime = true
    · have htr : s.tracked .tl = true := by simp [MPs.tracked, hlt]
      rw [if_pos htr, if_pos htr]
      have e : (s.replaceHits (s.impactMask ch.outside) rep tt).arr .tl =
          maskPut (s.arr .tl) (fullMask s (outMask s ch)) (List.replicate (countTrue (outMask s ch)) tt) := by
        simp [MPs.replaceHits, hlt, impactMask_eq, countTrue_fullMask]
      rw [e, maskPut_fullMask s h _ _ hk _ (by simp)]
      congr 1
      rw [← hr]
      symm
      rw [List.eq_replicate_iff]
      refine ⟨by simp, ?_⟩
      intro b hb
      obtain ⟨e, -, rfl⟩ := List.mem_map.1 hb
      simp [Emit.particle, hlt]
    · have hlf : s.lifetime = false := by simpa using hlt
      have htr : ¬ s.tracked .tl = true := by simp [MPs.tracked, hlf]
      rw [if_neg htr, if_neg htr]
      have : rep.map ((fun p : Particle K => p .tl) ∘ Emit.particle s.lifetime tt) =
          List.replicate rep.length (-1) := by
        rw [List.eq_replicate_iff]
        refine ⟨by simp, ?_⟩
        intro b hb
        obtain ⟨e, -, rfl⟩ := List.mem_map.1 hb
        simp [Emit.particle, hlf]
      rw [this, maskPut_replicate _ _ _ (fun x hx => (List.mem_replicate.1 hx).2)]
  · have htr : s.tracked f = true := by
      cases f <;> first | rfl | exact absurd rfl hf
    rw [if_pos htr, if_pos htr]
    have e : (s.replaceHits (s.impactMask ch.outside) rep tt).arr f =
        maskPut (s.arr f) (fullMask s (outMask s ch)) (rep.map (fun e => e.fld f)) := by
      simp [MPs.replaceHits, hf, impactMask_eq]
    rw [e, maskPut_fullMask s h _ _ hk _ (by simp [hr])]
    congr 1
    apply List.map_congr_left
    intro e _
    exact (Emit.fld_particle e _ tt f hf).symm

theorem newSrc_fits (new : List (Emit K)) (tt : K) (f : Fld) : (newSrc new tt f).Fits new.length := by
  cases f <;> simp [newSrc, Src.Fits]

theorem newSrc_particles (s : MPs K) (new : List (Emit K)) (tt : K) :
    srcParticles s.tracked new.length (newSrc new tt) = new.map (Emit.particle s.lifetime tt) := by
  apply particles_ext
  intro f
  rw [srcParticles_col _ _ _ _ (newSrc_fits new tt f), List.map_map]
  by_cases hf : f = .tl
  · subst hf
    have : new.map ((fun p : Particle K => p .tl) ∘ Emit.particle s.lifetime tt) =
        List.replicate new.length (if s.lifetime then tt else -1) := by
      rw [List.eq_replicate_iff]
      refine ⟨by simp, ?_⟩
      intro b hb
      obtain ⟨e, -, rfl⟩ := List.mem_map.1 hb
      rfl
    rw [this]
    cases hlt : s.lifetime <;> simp [MPs.tracked, hlt, newSrc, Src.expand]
  · have htr : s.tracked f = true := by
      cases f <;> first | rfl | exact absurd rfl hf
    rw [if_pos htr]
    have : newSrc new tt f = .array (new.map (fun e => e.fld f)) := by
      cases f <;> first | rfl | exact absurd rfl hf
    rw [this]
    apply List.map_congr_left
    intro e _
    exact (Emit.fld_particle e _ tt f hf).symm

theorem mapM_ok {α β : Type} (f : α → Except PyErr β) (l : List α) (r : List β) (h : l.mapM f = .ok r) :
    List.Forall₂ (fun a b => f a = .ok b) l r := by
  induction l generalizing r with
  | nil => simp only [List.mapM_nil] at h; cases h; exact List.Forall₂.nil
  | cons a l ih =>
    rw [List.mapM_cons] at h
    obtain ⟨b, h1, h2⟩ := bind_ok h
    obtain ⟨bs, h3, h4⟩ := bind_ok h2
    cases h4
    exact List.Forall₂.cons h1 (ih _ h3)

section step

variable [FloorRing K]

/-- everything the impact step does when at least one macroparticle is outside -/
structure ImpactRun (sq : K → K) (c : ImpCfg K) (ch : Chamber K)
    (sey : K → List (Impact K) → Except PyErr (SeyOut K)) (s : MPs K) (old : List (K × K × K)) (tt : K)
    (h : ImpHist K) (s' : MPs K) (h' : ImpHist K) (n : ImpCount K) (hs : List (Hit K)) (is : List (Impact K))
    (out : SeyOut K) : Prop where
  hits : List.Forall₂ (fun q b => ch.hit q.1 q.2 = .ok b)
    ((maskSel old (outMask s ch)).zip ((s.live.filter ch.out).map (fun p => (p .x, p .y, p .z)))) hs
  imps : is = ((s.live.filter ch.out).zip hs).map (fun q => mkImpact sq c.ke q.1 q.2)
  len : is.length = (s.live.filter ch.out).length
  sey : sey s.split is = .ok out
  live : s'.live = maskPut s.live (outMask s ch) (out.replace.map (Emit.particle s.lifetime tt))
    ++ out.new.map (Emit.particle s.lifetime tt)
  wf : s'.WF
  cap : s'.cap = s.cap
  sizes : s'.ref = s.ref ∧ s'.split = s.split ∧ s'.clTh = s.clTh ∧ s'.lifetime = s.lifetime
  hists : ∃ h1 h2, impactHists c s.lifetime tt ((maskSel (rawLive s) (outMask s ch)).map (fun p => p .tl)) is h
      = .ok h1 ∧ emitHists sq c out.replace h1 = .ok h2 ∧
      ((out.new = [] ∧ h' = h2) ∨ (out.new ≠ [] ∧ emitHists sq c out.new h2 = .ok h'))
  count : n = ⟨(is.map (fun i => i.nel)).sum, out.nelEmit.sum, (is.map (fun i => i.en * i.nel)).sum,
    (out.replace.map (fun e => e.energy sq c.ke * e.nel)).sum
      + (out.new.map (fun e => e.energy sq c.ke * e.nel)).sum⟩

theorem impactStep_cases (sq : K → K) (c : ImpCfg K) (ch : Chamber K)
    (sey : K → List (Impact K) → Except PyErr (SeyOut K)) (s : MPs K) (hwf : s.WF) (hroom : s.nmp < s.cap)
    (old : List (K × K × K)) (tt : K) (h : ImpHist K) (s' : MPs K) (h' : ImpHist K) (n : ImpCount K)
    (hsey : ∀ imps out, sey s.split imps = .ok out → out.replace.length = imps.length)
    (hok : impactStep sq c ch sey s old tt h = .ok (s', h', n)) :
    (s.live.filter ch.out = [] ∧ s' = s ∧ h' = h ∧ n = ⟨0, 0, 0, 0⟩) ∨
    (s.live.filter ch.out ≠ [] ∧ old.length = s.nmp ∧ ∃ hits imps out,
      ImpactRun sq c ch sey s old tt h s' h' n hits imps out) := by
  have hct : countTrue (s.impactMask ch.outside) = (s.live.filter ch.out).length := by
    rw [impactMask_eq, countTrue_fullMask, countTrue_outMask]
  unfold impactStep at hok
  by_cases hn : s.nmp > 0
  swap
  · rw [if_neg hn] at hok
    simp only [Except.ok.injEq, Prod.mk.injEq] at hok
    refine Or.inl ⟨?_, hok.1.symm, hok.2.1.symm, hok.2.2.symm⟩
    have : s.live = [] := List.length_eq_zero_iff.1 (by rw [live_length]; omega)
    rw [this]; rfl
  rw [if_pos hn] at hok
  dsimp only at hok
  by_cases hc : countTrue (s.impactMask ch.outside) > 0
  swap
  · rw [if_neg hc] at hok
    simp only [Except.ok.injEq, Prod.mk.injEq] at hok
    refine Or.inl ⟨?_, hok.1.symm, hok.2.1.symm, hok.2.2.symm⟩
    exact List.length_eq_zero_iff.1 (by omega)
  rw [if_pos hc] at hok
  refine Or.inr ⟨fun e => by rw [hct, e] at hc; simp at hc, ?_⟩
  by_cases hol : old.length ≠ s.nmp
  · rw [if_pos hol] at hok
    cases hok
  rw [if_neg hol] at hok
  refine ⟨by omega, ?_⟩
  obtain ⟨hits, hh, hok⟩ := bind_ok hok
  obtain ⟨h1, hh1, hok⟩ := bind_ok hok
  obtain ⟨out, hout, hok⟩ := bind_ok hok
  obtain ⟨h2, hh2, hok⟩ := bind_ok hok
  obtain ⟨⟨s2, h3, en⟩, hnew, hok⟩ := bind_ok hok
  have hmask : (s.impactMask ch.outside).take s.nmp = outMask s ch := by
    rw [impactMask_eq]; unfold fullMask
    exact List.take_left' (outMask_length s ch)
  rw [hmask] at hh
  set rows := maskSel s.rows (s.impactMask ch.outside) with hrows
  have htr : rows.map (trackP s) = s.live.filter ch.out := rows_sel s hwf ch
  have hrlen : rows.length = (s.live.filter ch.out).length := by rw [← htr, List.length_map]
  have himp : (rows.zip hits).map (fun q => mkImpact sq c.ke q.1 q.2) =
      ((s.live.filter ch.out).zip hits).map (fun q => mkImpact sq c.ke q.1 q.2) := by
    rw [← htr, List.zip_map_left, List.map_map]
    rfl
  rw [himp] at hh1 hout hok
  have hhits := mapM_ok _ _ _ hh
  have hold : (maskSel old (outMask s ch)).length = (s.live.filter ch.out).length := by
    rw [maskSel_length _ _ (by rw [outMask_length]; omega), countTrue_outMask]
  have hhl : hits.length = (s.live.filter ch.out).length := by
    rw [← hhits.length_eq, List.length_zip, hold, hrlen, Nat.min_self]
  have hil : (((s.live.filter ch.out).zip hits).map (fun q => mkImpact sq c.ke q.1 q.2)).length =
      (s.live.filter ch.out).length := by
    rw [List.length_map, List.length_zip, hhl, Nat.min_self]
  have hrep : out.replace.length = countTrue (outMask s ch) := by
    rw [hsey _ _ hout, hil, countTrue_outMask]
  have hlive := replaceHits_live s hwf ch out.replace tt hrep
  obtain ⟨hw1, hcap1⟩ := replaceHits_wf s hwf (s.impactMask ch.outside) out.replace tt
  simp only [Except.ok.injEq, Prod.mk.injEq] at hok
  obtain ⟨rfl, rfl, hcnt⟩ := hok
  refine ⟨hits, ((s.live.filter ch.out).zip hits).map (fun q => mkImpact sq c.ke q.1 q.2), out, ?_⟩
  have hfin : s2.live = maskPut s.live (outMask s ch) (out.replace.map (Emit.particle s.lifetime tt))
      ++ out.new.map (Emit.particle s.lifetime tt) ∧ s2.WF ∧ s2.cap = s.cap ∧
      (s2.ref = s.ref ∧ s2.split = s.split ∧ s2.clTh = s.clTh ∧ s2.lifetime = s.lifetime) ∧
      ((out.new = [] ∧ h3 = h2) ∨ (out.new ≠ [] ∧ emitHists sq c out.new h2 = .ok h3)) ∧
      en = (out.new.map (fun e => e.energy sq c.ke * e.nel)).sum := by
    unfold addEmitted at hnew
    by_cases hpos : 0 < out.new.length
    · rw [if_pos hpos] at hnew
      obtain ⟨s3, hs3, hnew⟩ := bind_ok hnew
      obtain ⟨h4, hh4, hnew⟩ := bind_ok hnew
      cases hnew
      have hw2 := addNew_wf _ _ hw1 _ _ _ rfl (by simp) (fun _ => by rw [hcap1]; exact hroom) hs3
      have hnm := addNew_sameSizes _ _ _ _ hs3
      have hfit : (s.replaceHits (s.impactMask ch.outside) out.replace tt).nmp + out.new.length ≤
          (s.replaceHits (s.impactMask ch.outside) out.replace tt).cap := by
        rw [← hw2.2, ← hnm.2]; exact hw2.1.fits
      obtain ⟨s4, e4, l4, -, -⟩ := addNew_ok _ hw1 out.new.length (newSrc out.new tt) hfit
        (fun f _ => newSrc_fits out.new tt f)
      rw [hs3] at e4
      cases e4
      refine ⟨?_, hw2.1, by rw [hw2.2, hcap1], ?_, Or.inr ⟨?_, hh4⟩, rfl⟩
      · rw [l4, hlive, newSrc_particles]; rfl
      · refine ⟨hnm.1.ref, ?_, ?_, ?_⟩
        all_goals
          unfold MPs.addNew at hs3
          split at hs3
          · cases hs3
          · cases hs3; rfl
      · intro e; rw [e] at hpos; simp at hpos
    · rw [if_neg hpos] at hnew
      have hnil : out.new = [] := List.length_eq_zero_iff.1 (by omega)
      cases hnew
      refine ⟨?_, hw1, hcap1, ⟨rfl, rfl, rfl, rfl⟩, Or.inl ⟨hnil, rfl⟩, ?_⟩
      · rw [hlive, hnil]; simp
      · rw [hnil]; rfl
  obtain ⟨f1, f2, f3, f4, f5, f6⟩ := hfin
  constructor
  · have e : (s.live.filter ch.out).map (fun p : Particle K => (p .x, p .y, p .z)) =
        rows.map (fun p : Particle K => (p .x, p .y, p .z)) := by
      rw [← htr, List.map_map]; rfl
    rw [e, List.zip_map_right, List.forall₂_map_left_iff]
    exact hhits
  · rfl
  · exact hil
  · exact hout
  · exact f1
  · exact f2
  · exact f3
  · exact f4
  · refine ⟨h1, h2, ?_, hh2, f5⟩
    rw [hrows, impactMask_eq, maskSel_rows s hwf] at hh1
    exact hh1
  · rw [← f6, ← hcnt]

end step

end PyECLOUD
