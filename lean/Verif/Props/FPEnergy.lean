import Verif.Props.Emission

/-!
# Energy conservation in Furman-Pivi events (C94)
-/

namespace PyECLOUD

set_option linter.unusedSectionVars false

variable {K : Type} [Field K] [LinearOrder K] [IsStrictOrderedRing K] [FloorRing K]

/-- Cut a list into consecutive blocks of the given lengths. -/
def blocks {α : Type} : List ℕ → List α → List (List α)
  | [], _ => []
  | n :: ns, l => l.take n :: blocks ns (l.drop n)

theorem blocks_length {α : Type} (ns : List ℕ) (l : List α) : (blocks ns l).length = ns.length := by
  induction ns generalizing l with
  | nil => rfl
  | cons n ns ih => simp [blocks, ih]

theorem blocks_flatten {α : Type} (ns : List ℕ) (l : List α) (h : l.length = ns.sum) : (blocks ns l).flatten = l := by
  induction ns generalizing l with
  | nil => simpa [blocks] using (List.length_eq_zero_iff.1 (by simpa using h)).symm
  | cons n ns ih =>
    simp only [blocks, List.flatten_cons, List.sum_cons] at h ⊢
    rw [ih _ (by rw [List.length_drop]; omega), List.take_append_drop]

theorem npRepeat_length_sum {α : Type} (l : List α) (ns : List ℕ) (h : l.length = ns.length) :
    (npRepeat l ns).length = ns.sum := by
  induction l generalizing ns with
  | nil => cases ns with
    | nil => rfl
    | cons _ _ => simp at h
  | cons a l ih =>
    cases ns with
    | nil => simp at h
    | cons n ns => simp [npRepeat, ih ns (by simpa using h)]

/-- the pairs the code compares, event by event -/
theorem pairs_blocks (a es : List K) (nadd : List ℕ) (b : List K) (ha : a.length = nadd.length)
    (he : es.length = nadd.length) (hb : b.length = nadd.sum)
    (h : ∀ t ∈ ((npRepeat a nadd).zip b).zip (npRepeat es nadd), t.1.1 + t.1.2 ≤ t.2) :
    ∀ (j : ℕ) (ea e : K) (bl : List K), a[j]? = some ea → es[j]? = some e → (blocks nadd b)[j]? = some bl →
      ∀ x ∈ bl, ea + x ≤ e := by
  induction nadd generalizing a es b with
  | nil => intro j ea e bl _ _ h3; simp [blocks] at h3
  | cons n ns ih =>
    cases a with
    | nil => simp at ha
    | cons a0 a =>
      cases es with
      | nil => simp at he
      | cons e0 es =>
        simp only [List.sum_cons] at hb
        have hz : ((npRepeat (a0 :: a) (n :: ns)).zip b).zip (npRepeat (e0 :: es) (n :: ns)) =
            (((List.replicate n a0).zip (b.take n)).zip (List.replicate n e0)) ++
              ((npRepeat a ns).zip (b.drop n)).zip (npRepeat es ns) := by
          simp only [npRepeat]
          conv_lhs => rw [← List.take_append_drop n b]
          rw [List.zip_append (by simp; omega), List.zip_append (by simp; omega)]
        intro j ea e bl h1 h2 h3
        cases j with
        | zero =>
          simp only [List.getElem?_cons_zero, Option.some.injEq, blocks] at h1 h2 h3
          subst h1 h2 h3
          intro x hx
          obtain ⟨k, hk⟩ := List.getElem?_of_mem hx
          have hkn : k < n := by
            have := (List.getElem?_eq_some_iff.1 hk).1
            simp only [List.length_take] at this
            omega
          have hm : ((a0, x), e0) ∈ ((List.replicate n a0).zip (b.take n)).zip (List.replicate n e0) := by
            apply List.mem_of_getElem? (i := k)
            rw [List.getElem?_zip_eq_some, List.getElem?_zip_eq_some]
            simp [hkn, hk]
          exact h _ (by rw [hz]; exact List.mem_append_left _ hm)
        | succ j =>
          simp only [List.getElem?_cons_succ, blocks] at h1 h2 h3
          exact ih a es (b.drop n) (by simpa using ha) (by simpa using he) (by rw [List.length_drop]; omega)
            (fun t ht => h t (by rw [hz]; exact List.mem_append_right _ ht)) j ea e bl h1 h2 h3

theorem blocks_get_length {α : Type} (ns : List ℕ) (l : List α) (h : l.length = ns.sum) (j n : ℕ) (bl : List α)
    (h1 : ns[j]? = some n) (h2 : (blocks ns l)[j]? = some bl) : bl.length = n := by
  induction ns generalizing l j with
  | nil => simp at h1
  | cons m ns ih =>
    simp only [List.sum_cons] at h
    cases j with
    | zero =>
      simp only [List.getElem?_cons_zero, Option.some.injEq, blocks] at h1 h2
      subst h1 h2
      rw [List.length_take]; omega
    | succ j =>
      simp only [List.getElem?_cons_succ, blocks] at h1 h2
      exact ih _ (by rw [List.length_drop]; omega) j h1 h2

/-- **C94** as far as it holds. With energy conservation requested, in every true secondary event the energy of the first
electron plus that of any single other one does not exceed the energy of the impact; so events with two electrons
conserve the energy. Energies are identified by the velocities they are turned into. Missing: events with three or more
electrons, for which the code checks only pairs (`C94_violated`), and batches in which no event emits more than one
electron, which get no new velocity (C32). -/
theorem C94_pairs_partial (c : FPCfg) (g : FPGens K) (hg : g.Ok) (evs : List (FPEvent K))
    (hev : ∀ e ∈ evs, e.kind ≠ .true' → e.n = 0) (out : SeyOut K) (codes : List ℕ)
    (h : seyFP c g evs = .ok (out, codes)) (hmore : ∃ e ∈ evs, 2 ≤ e.n) (hc : c.conserveEnergy = true) :
    ∃ E : List (K × List K), E.length = (evs.filter FPEvent.alive).length ∧
      (∀ (j : ℕ) (ev : FPEvent K) (p : K × List K), (evs.filter FPEvent.alive)[j]? = some ev → E[j]? = some p →
        p.2.length = ev.n - 1 ∧ (∀ x ∈ p.2, p.1 + x ≤ ev.imp.en) ∧ (ev.n = 2 → p.1 + p.2.sum ≤ ev.imp.en)) ∧
      ((evs.zip out.replace).filter (fun q => q.1.alive)).map (fun q => (q.2.vx, q.2.vy, q.2.vz)) =
        ((evs.filter FPEvent.alive).zip (E.map (fun p => p.1))).mapIdx (fun k q => g.ang1 k q.2 q.1.imp.nx q.1.imp.ny) ∧
      out.new.map (fun e => (e.vx, e.vy, e.vz)) =
        ((evs.flatMap (fun e => List.replicate (e.n - 1) e)).zip (E.flatMap (fun p => p.2))).mapIdx
          (fun k q => g.ang2 k q.2 q.1.imp.nx q.1.imp.ny) := by
  have hO : FPOut c g evs out codes := seyFP_out c g hg evs hev _ h
  have hlen : out.replace.length = evs.length := by
    have := congrArg List.length hO.still
    simpa using this
  have hs : (evs.map FPEvent.nAdd).sum ≠ 0 := by
    obtain ⟨e, he, hn⟩ := hmore
    have := List.le_sum_of_mem (List.mem_map.2 ⟨e, he, rfl⟩ : FPEvent.nAdd e ∈ evs.map FPEvent.nAdd)
    unfold FPEvent.nAdd at this
    unfold FPEvent.nAdd
    omega
  obtain ⟨e1, e2, en, ht1, ht2, hen, hl1, hl2, hv1, hv2⟩ := hO.vel hs
  rw [hc] at hen
  simp only [if_true] at hen
  have hsum : (evs.map FPEvent.nAdd).sum = ((evs.filter FPEvent.alive).map FPEvent.nAdd).sum := by
    have : ∀ l : List (FPEvent K), (∀ e ∈ l, e.kind ≠ .true' → e.n = 0) →
        (l.map FPEvent.nAdd).sum = ((l.filter FPEvent.alive).map FPEvent.nAdd).sum := by
      intro l hl
      induction l with
      | nil => rfl
      | cons e l ih =>
        have ih' := ih (fun e he => hl e (List.mem_cons_of_mem _ he))
        by_cases ha : e.alive = true
        · simp [List.filter_cons, ha, ih']
        · have h0 : e.nAdd = 0 := by
            unfold FPEvent.nAdd
            by_cases hk : e.kind = .true'
            · have : e.n = 0 := by
                simp only [FPEvent.alive, hk, decide_true, Bool.true_and, decide_eq_true_eq, not_lt] at ha
                omega
              omega
            · have := hl e List.mem_cons_self hk
              omega
          simp [List.filter_cons, ha, ih', h0]
    exact this evs hev
  obtain ⟨-, -, hpair⟩ := conserveLoop_spec _ _ _ _ _ _ _ hen
  set live := evs.filter FPEvent.alive with hlive
  have hb : en.2.length = (live.map FPEvent.nAdd).sum := by rw [hl2, hsum]
  have hpb := pairs_blocks en.1 (live.map (fun e => e.imp.en)) (live.map FPEvent.nAdd) en.2 (by simp [hl1]) (by simp) hb hpair
  have hbl : (blocks (live.map FPEvent.nAdd) en.2).length = live.length := by rw [blocks_length, List.length_map]
  have hE1 : (en.1.zip (blocks (live.map FPEvent.nAdd) en.2)).map (fun p => p.1) = en.1 := List.map_fst_zip (by omega)
  have hE2 : (en.1.zip (blocks (live.map FPEvent.nAdd) en.2)).flatMap (fun p => p.2) = en.2 := by
    rw [List.flatMap_def, List.map_snd_zip (by omega), blocks_flatten _ _ hb]
  have hrep : ∀ (γ : Type) (f : FPEvent K → γ), npRepeat (evs.map f) (evs.map FPEvent.nAdd) =
      (evs.flatMap (fun e => List.replicate (e.n - 1) e)).map f := by
    intro γ f
    rw [npRepeat_flatMap, List.zip_map', List.flatMap_map, List.map_flatMap]
    apply List.flatMap_congr
    intro e _
    simp [FPEvent.nAdd]
  refine ⟨en.1.zip (blocks (live.map FPEvent.nAdd) en.2), by simp [hl1, hbl], ?_, ?_, ?_⟩
  · intro j ev p hj hp
    rw [List.getElem?_zip_eq_some] at hp
    obtain ⟨hp1, hp2⟩ := hp
    have hn : p.2.length = ev.n - 1 :=
      blocks_get_length _ _ hb j (ev.n - 1) p.2 (by rw [List.getElem?_map, hj]; rfl) hp2
    have hx := hpb j p.1 ev.imp.en p.2 hp1 (by rw [List.getElem?_map, hj]; rfl) hp2
    refine ⟨hn, hx, fun h2 => ?_⟩
    obtain ⟨x, hxe⟩ := List.length_eq_one_iff.1 (by rw [hn, h2] : p.2.length = 1)
    rw [hxe, List.sum_singleton]
    exact hx x (by rw [hxe]; exact List.mem_singleton.2 rfl)
  · rw [hE1]
    have hm := maskSel_filter_zip evs out.replace FPEvent.alive hlen.symm
    rw [hm, List.map_map] at hv1
    exact hv1
  · rw [hE2, hv2, hrep, List.zip_map_left]
    apply List.ext_getElem
    · simp
    · intro i h1 h2
      simp [List.getElem_mapIdx]

theorem inverseRepeat_go_get (a : List Bool) (reps : List ℕ) (acc k r : ℕ) (h : reps[k]? = some r) (hr : 0 < r) :
    (inverseRepeat.go a acc reps)[k]? = some (a.getD (acc + (reps.take (k + 1)).sum - 1) false) := by
  induction reps generalizing acc k with
  | nil => simp at h
  | cons s rs ih =>
    cases k with
    | zero =>
      simp only [List.getElem?_cons_zero, Option.some.injEq] at h
      subst h
      unfold inverseRepeat.go
      rw [List.getElem?_cons_zero, if_neg (by omega)]
      simp
    | succ k =>
      simp only [List.getElem?_cons_succ] at h
      unfold inverseRepeat.go
      rw [List.getElem?_cons_succ, ih (acc + s) k h, List.take_succ_cons, List.sum_cons, Nat.add_assoc]

/-- **C94**, what is drawn again: in one round of the conservation loop, an added electron whose energy and that of the first electron
of its event do not exceed the energy of the impact keeps its energy; the first electron of an event with added electrons keeps its
energy if this holds for the last electron of the event. -/
theorem C94_round (ns : List ℕ) (es : List K) (nadd : List ℕ) (g : TrueGen K × TrueGen K) (rs : List (TrueGen K × TrueGen K))
    (en1 en2 : List K) (q : List K × List K) (h : conserveLoop ns es nadd (g :: rs) en1 en2 = .ok q) :
    q = (en1, en2) ∨ ∃ r1 r2, conserveLoop ns es nadd rs r1 r2 = .ok q ∧
      (∀ (j : ℕ) (x a e : K), (npRepeat en1 nadd)[j]? = some x → en2[j]? = some a → (npRepeat es nadd)[j]? = some e → x + a ≤ e →
        r2[j]? = some a) ∧
      (∀ (k n : ℕ) (x a e : K), nadd[k]? = some n → 0 < n → (npRepeat en1 nadd)[(nadd.take (k + 1)).sum - 1]? = some x →
        en2[(nadd.take (k + 1)).sum - 1]? = some a → (npRepeat es nadd)[(nadd.take (k + 1)).sum - 1]? = some e → x + a ≤ e →
        r1[k]? = en1[k]?) := by
  unfold conserveLoop at h
  dsimp only at h
  split at h
  · cases h
    exact Or.inl rfl
  · split at h
    · cases h
    · next r2 _ =>
      split at h
      · cases h
      · next r1 _ =>
        right
        have hv : ∀ (j : ℕ) (x a e : K), (npRepeat en1 nadd)[j]? = some x → en2[j]? = some a → (npRepeat es nadd)[j]? = some e →
            x + a ≤ e → ((((npRepeat en1 nadd).zip en2).zip (npRepeat es nadd)).map (fun q => decide (q.2 < q.1.1 + q.1.2))).getD j false
              = false := by
          intro j x a e h1 h2 h3 hle
          have hz : (((npRepeat en1 nadd).zip en2).zip (npRepeat es nadd))[j]? = some ((x, a), e) := by
            rw [List.getElem?_zip_eq_some, List.getElem?_zip_eq_some]
            exact ⟨⟨h1, h2⟩, h3⟩
          rw [List.getD_eq_getElem?_getD, List.getElem?_map, hz]
          simpa using hle
        refine ⟨_, _, h, fun j x a e h1 h2 h3 hle => ?_, fun k n x a e hn hpos h1 h2 h3 hle => ?_⟩
        · rw [maskPut_getElem? _ _ _ _ (hv j x a e h1 h2 h3 hle), h2]
        · apply maskPut_getElem?
          rw [List.getD_eq_getElem?_getD]
          unfold inverseRepeat
          rw [inverseRepeat_go_get _ nadd 0 k n hn hpos, Nat.zero_add, Option.getD_some]
          exact hv _ x a e h1 h2 h3 hle

/-- two events with three and two electrons: only the last electron of the first event is too energetic, so it and the first electron
of this event are drawn again -/
example : ∃ r, conserveLoop [3, 2] [(10 : ℚ), 10] [2, 1] [(fun _ l => .ok (l.map (fun e => e / 5)), fun _ l => .ok (l.map (fun e => e / 10)))]
    [5, 4] [5, 6, 6] = .ok r ∧ r = ([1, 4], [5, 2, 6]) :=
  exists_ok (by decide +kernel)

/-- **C94** is violated in a further way: an event with a single electron has its energy drawn again because another event was too
energetic. -/
theorem C94_redraw_violated : ∃ r, conserveLoop [2, 1] [(10 : ℚ), 10] [1, 0]
    [(fun _ l => .ok (l.map (fun e => e / 5)), fun _ l => .ok (l.map (fun e => e / 10)))] [5, 4] [6] = .ok r ∧ r = ([1, 1], [2]) :=
  exists_ok (by decide +kernel)

/-- generators that give every electron half the energy of the impact, emitted along the normal with `v = E` -/
def halfGens : FPGens ℚ := { exGens with true1 := fun _ l => .ok (l.map (fun e => e / 2)),
                                         true2 := fun _ l => .ok (l.map (fun e => e / 2)) }

theorem halfGens_ok : halfGens.Ok := ⟨exGens_ok.back, exGens_ok.red, by
    intro n l r h; simp only [halfGens, Except.ok.injEq] at h; rw [← h]; simp, by
    intro n l r h; simp only [halfGens, Except.ok.injEq] at h; rw [← h]; simp⟩

/-- with energy conservation -/
def consFP : FPCfg := { exFP with conserveEnergy := true }

example : halfGens.Ok ∧ consFP.conserveEnergy = true ∧
    ∃ r, seyFP consFP halfGens [⟨exImp 2 5, .true', 1⟩, ⟨exImp 3 8, .true', 2⟩] = .ok r ∧
    (r.1.replace.map (fun e => e.vx) = [-5 / 2, -4] ∧ r.1.new.map (fun e => e.vx) = [-4]) :=
  ⟨halfGens_ok, rfl, exists_ok (by decide +kernel)⟩

/-- **C94** fails for three electrons: each gets half the energy of the impact, 3/2 in total, and the check of the code
accepts it without drawing again (`rounds` is empty). -/
theorem C94_violated : ∃ r, seyFP consFP halfGens [⟨exImp 2 8, .true', 3⟩] = .ok r ∧
    ((r.1.replace.map (fun e => -e.vx)) ++ r.1.new.map (fun e => -e.vx) = [4, 4, 4] ∧ (exImp 2 8).en = 8 ∧
      (8 : ℚ) < ([4, 4, 4] : List ℚ).sum) := exists_ok (by decide +kernel)

end PyECLOUD
