import Verif.Spec.Beams
import Verif.Props.MPSystem
import Mathlib.Tactic.FieldSimp

/-!
Properties C85 (beam fields at the particles), C86 (several beams advance together), C87 (electromagnetic space
charge), C88 (beam sizes).
-/

namespace PyECLOUD

set_option linter.unusedSectionVars false

section field
variable {K : Type} [Field K] [LinearOrder K] [FloorRing K] [IsStrictOrderedRing K]

/-- A float, or an array with one entry per particle. -/
def NpVal.fits (n : ℕ) : NpVal K → Prop
  | .scalar _ => True
  | .array l => l.length = n

theorem iadd_at (n : ℕ) (a b : NpVal K) (ha : a.fits n) (hb : b.fits n) :
    ∃ r, a.iadd b = .ok r ∧ r.fits n ∧ ((∀ l, a = .array l → ∃ m, r = .array m)) ∧
      ∀ i, i < n → r.at i = a.at i + b.at i := by
  cases a with
  | scalar a =>
    cases b with
    | scalar b => exact ⟨_, rfl, trivial, (fun l h => by cases h), fun i _ => rfl⟩
    | array m =>
      refine ⟨_, rfl, ?_, (fun l h => by cases h), fun i hi => ?_⟩
      · show (m.map _).length = n
        rw [List.length_map]; exact hb
      · show (m.map _).getD i 0 = a + m.getD i 0
        have : i < m.length := by rw [show m.length = n from hb]; exact hi
        simp [List.getD_eq_getElem?_getD, this]
  | array l =>
    cases b with
    | scalar b =>
      refine ⟨_, rfl, ?_, fun l h => ⟨_, rfl⟩, fun i hi => ?_⟩
      · show (l.map _).length = n
        rw [List.length_map]; exact ha
      · show (l.map _).getD i 0 = l.getD i 0 + b
        have : i < l.length := by rw [show l.length = n from ha]; exact hi
        simp [List.getD_eq_getElem?_getD, this]
    | array m =>
      have e : l.length = m.length := by
        rw [show l.length = n from ha, show m.length = n from hb]
      refine ⟨.array (l.zipWith (fun a b => a + b) m), ?_, ?_, fun l h => ⟨_, rfl⟩, fun i hi => ?_⟩
      · show (if l.length = m.length then _ else _) = _
        rw [if_pos e]
      · show (l.zipWith _ m).length = n
        rw [List.length_zipWith, ← e, min_self]; exact ha
      · show (l.zipWith _ m).getD i 0 = l.getD i 0 + m.getD i 0
        have h1 : i < l.length := by rw [show l.length = n from ha]; exact hi
        have h2 : i < m.length := by rw [show m.length = n from hb]; exact hi
        simp [List.getD_eq_getElem?_getD, h1, h2]

theorem beamFieldAt_at (b : BeamNow K) (pts : List (K × K)) :
    (beamFieldAt b pts).1.fits pts.length ∧ (beamFieldAt b pts).2.fits pts.length ∧
      ∀ (i : ℕ) (p : K × K), pts[i]? = some p →
        (beamFieldAt b pts).1.at i = beamTerm b (b.src.exAt p) ∧ (beamFieldAt b pts).2.at i = beamTerm b (b.src.eyAt p) := by
  unfold beamFieldAt
  by_cases h : b.lam > b.lamTh ∧ 0 < pts.length
  · rw [if_pos h]
    refine ⟨by cases hs : b.src <;> simp [NpVal.fits, hs, BeamSrc.fieldAt], by cases hs : b.src <;> simp [NpVal.fits, hs, BeamSrc.fieldAt],
      fun i p hp => ?_⟩
    constructor
    · cases hs : b.src <;> simp [NpVal.at, beamTerm, h.1, hs, BeamSrc.fieldAt, BeamSrc.exAt, BeamMap.exAt, List.getD_eq_getElem?_getD, hp]
    · cases hs : b.src <;> simp [NpVal.at, beamTerm, h.1, hs, BeamSrc.fieldAt, BeamSrc.eyAt, BeamMap.eyAt, List.getD_eq_getElem?_getD, hp]
  · rw [if_neg h]
    refine ⟨trivial, trivial, fun i p hp => ?_⟩
    have hpos : 0 < pts.length := by
      have := (List.getElem?_eq_some_iff.1 hp).1
      omega
    have hl : ¬ (b.lamTh < b.lam) := fun hl => h ⟨hl, hpos⟩
    simp [NpVal.at, beamTerm, hl]

theorem addBeams_at (pts : List (K × K)) : ∀ (secs : List (BeamNow K)) (e : NpVal K × NpVal K),
    e.1.fits pts.length → e.2.fits pts.length →
    ∃ r, addBeams pts secs e = .ok r ∧ r.1.fits pts.length ∧ r.2.fits pts.length ∧
      ∀ (i : ℕ) (p : K × K), pts[i]? = some p →
        r.1.at i = e.1.at i + (secs.map (fun b => beamTerm b (b.src.exAt p))).sum ∧
        r.2.at i = e.2.at i + (secs.map (fun b => beamTerm b (b.src.eyAt p))).sum
  | [], e, h1, h2 => ⟨e, rfl, h1, h2, fun i p _ => by simp⟩
  | b :: l, e, h1, h2 => by
    obtain ⟨f1, f2, f⟩ := beamFieldAt_at b pts
    obtain ⟨x, hx, x1, -, x2⟩ := iadd_at pts.length e.1 _ h1 f1
    obtain ⟨y, hy, y1, -, y2⟩ := iadd_at pts.length e.2 _ h2 f2
    obtain ⟨r, hr, r1, r2, r3⟩ := addBeams_at pts l (x, y) x1 y1
    refine ⟨r, ?_, r1, r2, fun i p hp => ?_⟩
    · simp only [addBeams, hx, hy]
      exact hr
    · have hi : i < pts.length := (List.getElem?_eq_some_iff.1 hp).1
      obtain ⟨a, c⟩ := r3 i p hp
      rw [a, c, x2 i hi, y2 i hi, (f i p hp).1, (f i p hp).2]
      constructor
      · rw [List.map_cons, List.sum_cons]; ring
      · rw [List.map_cons, List.sum_cons]; ring

/-- C85: with any number of beams and any number of particles, the field from the beams at every live macroparticle is
the sum over all beams of line density times charge times the interpolated map of that beam, where a beam whose line
density does not exceed the threshold contributes nothing. No exception occurs. -/
theorem C85_superposition (prim : BeamNow K) (secs : List (BeamNow K)) (pts : List (K × K)) :
    ∃ r, beamsAt prim secs pts = .ok r ∧ ∀ (i : ℕ) (p : K × K), pts[i]? = some p →
      r.1.at i = ((prim :: secs).map (fun b => beamTerm b (b.src.exAt p))).sum ∧
      r.2.at i = ((prim :: secs).map (fun b => beamTerm b (b.src.eyAt p))).sum := by
  obtain ⟨f1, f2, f⟩ := beamFieldAt_at prim pts
  obtain ⟨r, hr, -, -, h⟩ := addBeams_at pts secs (beamFieldAt prim pts) f1 f2
  refine ⟨r, hr, fun i p hp => ?_⟩
  obtain ⟨a, b⟩ := h i p hp
  rw [a, b, (f i p hp).1, (f i p hp).2]
  simp

/-- C85: the field handed to the tracker is the field of the clouds plus that sum, one entry per particle, and the
addition never fails. -/
theorem C85_total (prim : BeamNow K) (secs : List (BeamNow K)) (cx cy : List K) (pts : List (K × K))
    (hx : cx.length = pts.length) (hy : cy.length = pts.length) :
    ∃ ex ey, totalField prim secs (cx, cy) pts = .ok (.array ex, .array ey) ∧
      ex.length = pts.length ∧ ey.length = pts.length ∧
      ∀ (i : ℕ) (p : K × K), pts[i]? = some p →
        ex.getD i 0 = cx.getD i 0 + ((prim :: secs).map (fun b => beamTerm b (b.src.exAt p))).sum ∧
        ey.getD i 0 = cy.getD i 0 + ((prim :: secs).map (fun b => beamTerm b (b.src.eyAt p))).sum := by
  obtain ⟨f1, f2, f⟩ := beamFieldAt_at prim pts
  obtain ⟨r, hr, r1, r2, h⟩ := addBeams_at pts secs (beamFieldAt prim pts) f1 f2
  obtain ⟨x, hxx, xf, xa, xat⟩ := iadd_at pts.length (.array cx) r.1 hx r1
  obtain ⟨y, hyy, yf, ya, yat⟩ := iadd_at pts.length (.array cy) r.2 hy r2
  obtain ⟨ex, rfl⟩ := xa cx rfl
  obtain ⟨ey, rfl⟩ := ya cy rfl
  refine ⟨ex, ey, ?_, xf, yf, fun i p hp => ?_⟩
  · unfold totalField
    have hr' : beamsAt prim secs pts = .ok r := hr
    rw [hr']
    show (do
      let x ← (NpVal.array cx).iadd r.1
      let y ← (NpVal.array cy).iadd r.2
      Except.ok (x, y)) = _
    rw [hxx, hyy]
    rfl
  · have hi : i < pts.length := (List.getElem?_eq_some_iff.1 hp).1
    obtain ⟨a, b⟩ := h i p hp
    have e1 := xat i hi
    have e2 := yat i hi
    rw [a, (f i p hp).1] at e1
    rw [b, (f i p hp).2] at e2
    constructor
    · rw [List.map_cons, List.sum_cons]; exact e1
    · rw [List.map_cons, List.sum_cons]; exact e2

/-- C85: an order of the secondary beams is as good as any other. -/
theorem C85_order (prim : BeamNow K) (secs secs' : List (BeamNow K)) (h : secs.Perm secs') (pts : List (K × K)) :
    ∃ r r', beamsAt prim secs pts = .ok r ∧ beamsAt prim secs' pts = .ok r' ∧
      ∀ i, i < pts.length → r.1.at i = r'.1.at i ∧ r.2.at i = r'.2.at i := by
  obtain ⟨r, hr, e⟩ := C85_superposition prim secs pts
  obtain ⟨r', hr', e'⟩ := C85_superposition prim secs' pts
  refine ⟨r, r', hr, hr', fun i hi => ?_⟩
  obtain ⟨a, b⟩ := e i pts[i] (List.getElem?_eq_getElem hi)
  obtain ⟨a', b'⟩ := e' i pts[i] (List.getElem?_eq_getElem hi)
  have hp : (prim :: secs).Perm (prim :: secs') := h.cons prim
  exact ⟨by rw [a, a']; exact (hp.map _).sum_eq, by rw [b, b']; exact (hp.map _).sum_eq⟩

/-- A small map for the examples. -/
def mapToy : BeamMap ℚ := ⟨4, 4, -1, -1, 1, 1, fun i j => i + 2 * j, fun i _ => i⟩

/-- Non-vacuity: one beam above and one below threshold, two particles. -/
example : ∃ r, beamsAt (⟨.map mapToy, 2, 1, 3⟩ : BeamNow ℚ) [⟨.map mapToy, 5, 1, 1 / 2⟩, ⟨.pic (fun x y => (mapToy.exAt (x, y), y)), 1, 1, 2⟩] [(0, 0), (1 / 2, 0)] = .ok r ∧
    r.1.at 0 = 8 * mapToy.exAt (0, 0) ∧ mapToy.exAt (0, 0) = 6 ∧ r.1.at 1 = 8 * (13 / 2) := by
  refine exists_ok ?_
  decide +kernel

end field

/-! ### C86 -/

section several
variable {K : Type} [Field K] [LinearOrder K] [FloorRing K] [IsStrictOrderedRing K]

theorem pyGet_ok (l : List K) (i : ℤ) (h0 : 0 ≤ i) (h1 : i < (l.length : ℤ)) :
    ∃ v, pyGet l i = .ok v ∧ l[i.toNat]? = some v := by
  have hi : i.toNat < l.length := by omega
  refine ⟨l[i.toNat], ?_, List.getElem?_eq_getElem hi⟩
  unfold pyGet
  simp [hi, not_lt.2 h0]

theorem nextTimeStep_ok (g : BeamGrid K) (s : BeamSt K) (h0 : -1 ≤ s.ii) (h1 : s.ii + 2 < (g.t.length : ℤ))
    (hl : g.lam.length = g.t.length) :
    ∃ s' t0 l0, nextTimeStep g s = .ok s' ∧ s'.ii = s.ii + 1 ∧ s'.tt = some t0 ∧ g.t[(s.ii + 1).toNat]? = some t0 ∧
      s'.lamCurr = some l0 ∧ g.lam[(s.ii + 1).toNat]? = some l0 := by
  obtain ⟨a, ha, ha'⟩ := pyGet_ok g.t (s.ii + 1) (by omega) (by omega)
  obtain ⟨b, hb, -⟩ := pyGet_ok g.t (s.ii + 1 + 1) (by omega) (by omega)
  obtain ⟨c, hc, hc'⟩ := pyGet_ok g.lam (s.ii + 1) (by omega) (by rw [hl]; omega)
  refine ⟨⟨s.ii + 1, some a, some (b - a), some c, some ⌊a / g.bSpac⌋,
    cond (decide (⌊a / g.bSpac⌋ > s.passOld)) ⌊a / g.bSpac⌋ s.passOld, decide (⌊a / g.bSpac⌋ > s.passOld)⟩,
    a, c, ?_, rfl, rfl, ha', rfl, hc'⟩
  unfold nextTimeStep
  simp only [ha, hb, hc]
  rfl

/-- The state of a beam is that of step `k` of its own arrays. -/
def AtStep (k : ℕ) (b : BeamGrid K × BeamSt K) : Prop :=
  b.2.ii = (k : ℤ) - 1 ∧ (0 < k → b.2.tt = b.1.t[k - 1]? ∧ b.2.lamCurr = b.1.lam[k - 1]?)

theorem nextAll_ok (k n : ℕ) (hk : k + 1 < n) : ∀ (l : List (BeamGrid K × BeamSt K)),
    (∀ b ∈ l, AtStep k b ∧ b.1.t.length = n ∧ b.1.lam.length = n) →
    ∃ l', nextAll l = .ok l' ∧ l'.map (fun b => b.1) = l.map (fun b => b.1) ∧
      ∀ b ∈ l', AtStep (k + 1) b ∧ b.1.t.length = n ∧ b.1.lam.length = n
  | [], _ => ⟨[], rfl, rfl, fun b h => by cases h⟩
  | (g, s) :: l, h => by
    obtain ⟨⟨hi, -⟩, hn, hl⟩ := h (g, s) List.mem_cons_self
    have hi' : s.ii = (k : ℤ) - 1 := hi
    have hn' : g.t.length = n := hn
    obtain ⟨s', t0, l0, e, e1, e2, e3, e4, e5⟩ := nextTimeStep_ok g s (by omega) (by omega) (by rw [hl, hn])
    obtain ⟨l', hl', hm, hall⟩ := nextAll_ok k n hk l (fun b hb => h b (List.mem_cons_of_mem _ hb))
    refine ⟨(g, s') :: l', ?_, by simp [hm], ?_⟩
    · simp only [nextAll, e, hl']
      rfl
    · intro b hb
      rcases List.mem_cons.1 hb with rfl | hb
      · have hk' : (s.ii + 1).toNat = k := by omega
        rw [hk'] at e3 e5
        refine ⟨⟨by show s'.ii = _; rw [e1, hi']; push_cast; ring, fun _ => ⟨?_, ?_⟩⟩, hn, hl⟩
        · show s'.tt = g.t[k + 1 - 1]?
          rw [e2, Nat.add_sub_cancel, e3]
        · show s'.lamCurr = g.lam[k + 1 - 1]?
          rw [e4, Nat.add_sub_cancel, e5]
      · exact hall b hb

theorem runBeams_ok (m : ℕ) : ∀ (k n : ℕ) (p : BeamGrid K × BeamSt K) (secs : List (BeamGrid K × BeamSt K)),
    k + 1 ≤ n → (∀ b ∈ p :: secs, AtStep k b ∧ b.1.t.length = n ∧ b.1.lam.length = n) →
    ∃ p' secs', runBeams m p secs = .ok (p', secs') ∧ (p' :: secs').map (fun b => b.1) = (p :: secs).map (fun b => b.1) ∧
      ∀ b ∈ p' :: secs', AtStep (min (k + m) (n - 1)) b ∧ b.1.t.length = n ∧ b.1.lam.length = n := by
  induction m with
  | zero =>
    intro k n p secs hk h
    refine ⟨p, secs, rfl, rfl, ?_⟩
    rw [show min (k + 0) (n - 1) = k by omega]
    exact h
  | succ m ih =>
    intro k n p secs hk h
    obtain ⟨⟨hi, -⟩, hn, hl⟩ := h p List.mem_cons_self
    obtain ⟨g, s⟩ := p
    have hi' : s.ii = (k : ℤ) - 1 := hi
    have hn' : g.t.length = n := hn
    by_cases he : endSim g s
    · refine ⟨(g, s), secs, ?_, rfl, ?_⟩
      · simp only [runBeams, he]
        rfl
      · have hk2 : (n : ℤ) ≤ s.ii + 2 := by
          simp only [endSim, decide_eq_true_eq] at he
          rw [hn'] at he; exact he
        rw [show min (k + (m + 1)) (n - 1) = k by omega]
        exact h
    · have hk2 : s.ii + 2 < (n : ℤ) := by
        simp only [endSim, decide_eq_true_eq] at he
        rw [hn'] at he; omega
      obtain ⟨l', hl', hm, hall⟩ := nextAll_ok k n (by omega) ((g, s) :: secs) h
      -- the primary beam is advanced first, then the others
      simp only [nextAll] at hl'
      cases hns : nextTimeStep g s with
      | error e => rw [hns] at hl'; cases hl'
      | ok s' =>
        rw [hns] at hl'
        cases hna : nextAll secs with
        | error e => rw [hna] at hl'; cases hl'
        | ok secs' =>
          rw [hna] at hl'
          have hl'' : (g, s') :: secs' = l' := Except.ok.inj hl'
          rw [← hl''] at hm hall
          obtain ⟨p2, secs2, e, em, ea⟩ := ih (k + 1) n (g, s') secs' (by omega) hall
          refine ⟨p2, secs2, ?_, by rw [em, hm], ?_⟩
          · simp only [runBeams, he, hns, hna]
            exact e
          · rw [show min (k + (m + 1)) (n - 1) = min (k + 1 + m) (n - 1) by omega]
            exact ea

theorem foldl_max_ge : ∀ (l : List K) (a v : K), v ∈ l ∨ v ≤ a → v ≤ l.foldl max a
  | [], a, v, h => by
    rcases h with h | h
    · cases h
    · exact h
  | b :: l, a, v, h => by
    refine foldl_max_ge l (max a b) v ?_
    rcases h with h | h
    · rcases List.mem_cons.1 h with rfl | h
      · exact Or.inr (le_max_right _ _)
      · exact Or.inl h
    · exact Or.inr (le_trans h (le_max_left _ _))

/-- C86: when the time axes of the secondary beams have passed the consistency check and every density has one entry
per time, then after any number of iterations of the main loop no exception has occurred, all beams are at the same
step, the line density of each beam is the entry of that step, and the times of any secondary beam differ from the
primary time by at most one ten-thousandth of the time step. -/
theorem C86_together (dt : K) (hdt : 0 < dt) (g : BeamGrid K) (gs : List (BeamGrid K)) (h1 : 1 ≤ g.t.length)
    (hl : g.lam.length = g.t.length) (hs : ∀ s ∈ gs, secBeamOk dt s.t g.t = true ∧ s.lam.length = s.t.length) (m : ℕ) :
    ∃ p secs, runBeams m (g, BeamSt.init) (gs.map (fun s => (s, BeamSt.init))) = .ok (p, secs) ∧
      p.1 = g ∧ secs.map (fun b => b.1) = gs ∧
      ∀ b ∈ p :: secs, b.2.ii = p.2.ii ∧ p.2.ii = (min m (g.t.length - 1) : ℕ) - 1 ∧
        (0 < min m (g.t.length - 1) → ∃ t0 t1 l1, p.2.tt = some t0 ∧ g.t[min m (g.t.length - 1) - 1]? = some t0 ∧
          b.2.tt = some t1 ∧ b.2.lamCurr = some l1 ∧ b.1.lam[min m (g.t.length - 1) - 1]? = some l1 ∧
          |t1 - t0| ≤ dt / 10000) := by
  have hlen : ∀ s ∈ gs, s.t.length = g.t.length := by
    intro s hsm
    have := (hs s hsm).1
    simp only [secBeamOk, Bool.and_eq_true, decide_eq_true_eq] at this
    exact this.1
  have hclose : ∀ s ∈ gs, ∀ (i : ℕ) (t1 t0 : K), s.t[i]? = some t1 → g.t[i]? = some t0 → |t1 - t0| ≤ dt / 10000 := by
    intro s hsm i t1 t0 e1 e0
    have := (hs s hsm).1
    simp only [secBeamOk, Bool.and_eq_true, decide_eq_true_eq, Bool.not_eq_true', decide_eq_false_iff_not, not_lt,
      gt_iff_lt] at this
    have hmem : |t1 - t0| / dt ∈ s.t.zipWith (fun a b => |a - b| / dt) g.t := by
      refine List.mem_iff_getElem?.2 ⟨i, ?_⟩
      rw [List.getElem?_zipWith, e1, e0]
    have h2 := le_trans (foldl_max_ge _ 0 _ (Or.inl hmem)) this.2
    rw [div_le_iff₀ hdt] at h2
    rw [show dt / 10000 = 1 / 10000 * dt by ring]
    exact h2
  obtain ⟨p, secs, e, hm, ha⟩ := runBeams_ok m 0 g.t.length (g, BeamSt.init) (gs.map (fun s => (s, BeamSt.init)))
    (by omega) (by
      intro b hb
      rcases List.mem_cons.1 hb with rfl | hb
      · exact ⟨⟨rfl, fun h => by omega⟩, rfl, hl⟩
      · obtain ⟨s, hsm, rfl⟩ := List.mem_map.1 hb
        exact ⟨⟨rfl, fun h => by omega⟩, hlen s hsm, by show s.lam.length = _; rw [(hs s hsm).2, hlen s hsm]⟩)
  rw [Nat.zero_add] at ha
  have hm' : p.1 :: secs.map (fun b => b.1) = g :: gs := by
    have : ((g, (BeamSt.init : BeamSt K)) :: gs.map (fun s => (s, BeamSt.init))).map (fun b => b.1) = g :: gs := by
      simp [Function.comp_def]
    rw [← this, ← hm]
    rfl
  obtain ⟨hp, hsecs⟩ := List.cons.inj hm'
  obtain ⟨⟨hpi, hpt⟩, hpn, hpl⟩ := ha p List.mem_cons_self
  refine ⟨p, secs, e, hp, hsecs, fun b hb => ?_⟩
  obtain ⟨⟨hbi, hbt⟩, hbn, hbl⟩ := ha b hb
  refine ⟨by rw [hbi, hpi], hpi, fun hpos => ?_⟩
  set k := min m (g.t.length - 1) with hk
  have hlt : k - 1 < g.t.length := by omega
  have hb0 : k - 1 < b.1.t.length := by rw [hbn]; exact hlt
  have hb1 : k - 1 < b.1.lam.length := by rw [hbl]; exact hlt
  refine ⟨g.t[k - 1], b.1.t[k - 1], b.1.lam[k - 1], ?_, List.getElem?_eq_getElem hlt, ?_, ?_, List.getElem?_eq_getElem hb1, ?_⟩
  · rw [(hpt hpos).1, hp, List.getElem?_eq_getElem hlt]
  · rw [(hbt hpos).1, List.getElem?_eq_getElem hb0]
  · rw [(hbt hpos).2, List.getElem?_eq_getElem hb1]
  · rcases List.mem_cons.1 hb with h | h
    · have e0 : b.1.t[k - 1] = g.t[k - 1] := by
        have : b.1.t = g.t := by rw [h, hp]
        simp only [this]
      rw [e0]; simp; positivity
    · have hbm : b.1 ∈ gs := by
        rw [← hsecs]; exact List.mem_map_of_mem h
      exact hclose b.1 hbm (k - 1) _ _ (List.getElem?_eq_getElem hb0) (List.getElem?_eq_getElem hlt)

/-- Non-vacuity: two secondary beams, one with slightly different times. -/
example : secBeamOk (1 : ℚ) [0, 1, 2] [0, 1, 2] = true ∧ secBeamOk (1 : ℚ) [0, 1 + 1 / 20000, 2] [0, 1, 2] = true ∧
    secBeamOk (1 : ℚ) [0, 1, 3] [0, 1, 2] = false ∧ secBeamOk (1 : ℚ) [0, 1] [0, 1, 2] = false := by
  decide +kernel

/-- C86: the profile file of a secondary beam that lies in the input folder with the extension `.mat` is found there,
provided that a file for the primary beam does (the lookup looks for the primary name). -/
theorem C86_lookup_partial (isFile : String → Bool) (folder name primName : String)
    (h : isFile (folder ++ "/" ++ primName ++ ".mat") = isFile (folder ++ "/" ++ name ++ ".mat")) :
    secProfPath isFile folder name primName = profPath isFile folder name := by
  unfold secProfPath profPath
  rw [h]

/-- C86 fails for the lookup in general: the file exists with the extension in the input folder, and the code
nevertheless passes on the bare name. -/
theorem C86_lookup_violated : ∃ (isFile : String → Bool) (folder name primName : String),
    isFile (folder ++ "/" ++ name ++ ".mat") = true ∧
    secProfPath isFile folder name primName = name ∧
    profPath isFile folder name = folder ++ "/" ++ name ++ ".mat" := by
  refine ⟨fun s => decide (s = "in/b2.mat"), "in", "b2", "b1", ?_, ?_, ?_⟩ <;> decide +kernel

end several

/-! ### C87 -/

section em
variable {G P : Type} [AddCommMonoid G]

theorem emRound_tail (sol : G → P) (n : ℕ) : ∀ (l : List (EmDep G)) (i : ℕ) (s : EmSt G P), 0 < i → l ≠ [] → i + l.length = n →
    ∃ ox oy, emRound sol n i l s =
      ⟨⟨s.pic.rho + (l.map (fun d => d.q)).sum, sol (s.pic.rho + (l.map (fun d => d.q)).sum)⟩,
       ⟨s.ax.rho + (l.map (fun d => d.jx)).sum, sol (s.ax.rho + (l.map (fun d => d.jx)).sum)⟩,
       ⟨s.ay.rho + (l.map (fun d => d.jy)).sum, sol (s.ay.rho + (l.map (fun d => d.jy)).sum)⟩,
       some ox, some oy⟩ ∧ ox.phi = s.ax.phi ∧ oy.phi = s.ay.phi
  | [], i, s, _, h, _ => absurd rfl h
  | [d], i, s, hi, _, hn => by
    have h1 : i + 1 = n := hn
    have h0 : i ≠ 0 := by omega
    refine ⟨s.ax, s.ay, ?_, rfl, rfl⟩
    simp [emRound, emRecompute, h1, h0, Pic.scatter, Pic.solve]
  | d :: d' :: l, i, s, hi, _, hn => by
    have h1 : i + 1 ≠ n := by
      simp only [List.length_cons] at hn
      omega
    have h0 : i ≠ 0 := by omega
    obtain ⟨ox, oy, e, e1, e2⟩ := emRound_tail sol n (d' :: l) (i + 1)
      (emRecompute sol (decide (i + 1 = n)) (decide (i = 0)) d s) (by omega) (by simp)
      (by simp only [List.length_cons] at hn ⊢; omega)
    refine ⟨ox, oy, ?_, ?_, ?_⟩
    · rw [emRound, e]
      simp [emRecompute, h1, h0, Pic.scatter, add_assoc]
    · rw [e1]; simp [emRecompute, h1, Pic.scatter]
    · rw [e2]; simp [emRecompute, h1, Pic.scatter]

/-- C87: one recomputation over any number of clouds, from any state: the three potentials are the solutions for the
summed deposits of all clouds, and the potentials kept for the time derivative are those before the recomputation. -/
theorem C87_round (sol : G → P) (ds : List (EmDep G)) (h : ds ≠ []) (s : EmSt G P) :
    (emRound sol ds.length 0 ds s).pic.phi = potQ sol ds ∧ (emRound sol ds.length 0 ds s).ax.phi = potX sol ds ∧
    (emRound sol ds.length 0 ds s).ay.phi = potY sol ds ∧
    ∃ ox oy, (emRound sol ds.length 0 ds s).axOld = some ox ∧ (emRound sol ds.length 0 ds s).ayOld = some oy ∧
      ox.phi = s.ax.phi ∧ oy.phi = s.ay.phi := by
  cases ds with
  | nil => exact absurd rfl h
  | cons d l =>
    cases l with
    | nil =>
      refine ⟨?_, ?_, ?_, s.ax, s.ay, ?_, ?_, rfl, rfl⟩ <;>
        simp [emRound, emRecompute, Pic.scatter, Pic.solve, potQ, potX, potY]
    | cons d' l =>
      have h1 : ¬ (0 + 1 = (d :: d' :: l).length) := by
        simp only [List.length_cons]; omega
      obtain ⟨ox, oy, e, e1, e2⟩ := emRound_tail sol (d :: d' :: l).length (d' :: l) 1
        (emRecompute sol (decide (0 + 1 = (d :: d' :: l).length)) (decide (0 = 0)) d s) (by omega) (by simp)
        (by simp only [List.length_cons]; omega)
      have e' : emRound sol (d :: d' :: l).length 0 (d :: d' :: l) s = _ := e
      rw [e']
      refine ⟨?_, ?_, ?_, ox, oy, rfl, rfl, ?_, ?_⟩
      · simp [emRecompute, Pic.scatter, potQ]
      · simp [emRecompute, Pic.scatter, potX]
      · simp [emRecompute, Pic.scatter, potY]
      · rw [e1]; simp [emRecompute, Pic.scatter]
      · rw [e2]; simp [emRecompute, Pic.scatter]

variable {K : Type} [Field K] [LinearOrder K] [IsStrictOrderedRing K]

/-- The solver agrees with the log of recomputations: last entry = current potentials, last but one = old ones. -/
def EmInv (sol : G → P) (e0 : EmSt G P) (s : EmSim G P K) : Prop :=
  (s.log = [] → s.em = e0) ∧
  ∀ (l : List (K × List (EmDep G))) (t : K) (ds : List (EmDep G)), s.log = l ++ [(t, ds)] →
    s.em.pic.phi = potQ sol ds ∧ s.em.ax.phi = potX sol ds ∧ s.em.ay.phi = potY sol ds ∧
    ∃ ox oy, s.em.axOld = some ox ∧ s.em.ayOld = some oy ∧
      (l = [] → ox.phi = e0.ax.phi ∧ oy.phi = e0.ay.phi) ∧
      ∀ (l' : List (K × List (EmDep G))) (t' : K) (ds' : List (EmDep G)), l = l' ++ [(t', ds')] →
        ox.phi = potX sol ds' ∧ oy.phi = potY sol ds'

theorem emStep_inv (sol : G → P) (e0 : EmSt G P) (dtSc : Option K) (tScOn : K) (s : EmSim G P K) (t : K)
    (ds : List (EmDep G)) (hd : ds ≠ []) (h : EmInv sol e0 s) : EmInv sol e0 (emStep sol dtSc tScOn s t ds) := by
  unfold emStep
  by_cases hc : scDo tScOn t (scCheck dtSc s.tLast t).1 false = true
  · simp only [hc, if_true]
    obtain ⟨r1, r2, r3, ox, oy, o1, o2, o3, o4⟩ := C87_round sol ds hd s.em
    refine ⟨fun hl => by simp at hl, fun l t1 ds1 hl => ?_⟩
    obtain ⟨hl1, hl2⟩ := List.append_inj' hl rfl
    have hp := List.cons.inj hl2
    obtain ⟨-, hds⟩ := Prod.mk.inj hp.1
    subst hds
    subst hl1
    refine ⟨r1, r2, r3, ox, oy, o1, o2, fun hn => ?_, fun l' t' ds' hl' => ?_⟩
    · have he := h.1 hn
      rw [o3, o4, he]
      exact ⟨rfl, rfl⟩
    · obtain ⟨-, a, b, -⟩ := h.2 l' t' ds' hl'
      rw [o3, o4, a, b]
      exact ⟨rfl, rfl⟩
  · simp only [Bool.not_eq_true] at hc
    simp only [hc]
    exact h

theorem emRun_inv (sol : G → P) (e0 : EmSt G P) (dtSc : Option K) (tScOn : K) :
    ∀ (steps : List (K × List (EmDep G))) (s : EmSim G P K), (∀ x ∈ steps, x.2 ≠ []) → EmInv sol e0 s →
      EmInv sol e0 (emRun sol dtSc tScOn s steps)
  | [], s, _, h => h
  | (t, ds) :: l, s, hd, h => by
    rw [emRun]
    exact emRun_inv sol e0 dtSc tScOn l _ (fun x hx => hd x (List.mem_cons_of_mem _ hx))
      (emStep_inv sol e0 dtSc tScOn s t ds (hd (t, ds) List.mem_cons_self) h)

/-- C87 (partial): after every run with at least two recomputations whose last two are `Dt_sc` apart, the fields are
those of the summed deposits of all clouds, the time derivative being the difference quotient over the actual time
between the two recomputations. Missing: recomputations at another distance, the first recomputation, restarts. -/
theorem C87_fields_partial (sol : G → P) (g : EmGather P K) (beta c d tScOn tl : K) (e0 : EmSt G P)
    (steps : List (K × List (EmDep G))) (hd : ∀ x ∈ steps, x.2 ≠ []) (l : List (K × List (EmDep G))) (t0 t1 : K)
    (c0 c1 : List (EmDep G)) (hlog : (emRun sol (some d) tScOn ⟨e0, tl, []⟩ steps).log = l ++ [(t0, c0), (t1, c1)])
    (ht : t1 - t0 = d) (p : K × K) :
    emField g beta c (some d) (emRun sol (some d) tScOn ⟨e0, tl, []⟩ steps).em p =
      .ok (fieldsOf g beta c (potQ sol c1) (potX sol c1) (potY sol c1)
        ((g.phi (potX sol c1) p - g.phi (potX sol c0) p) / (t1 - t0))
        ((g.phi (potY sol c1) p - g.phi (potY sol c0) p) / (t1 - t0)) p) := by
  have hi : EmInv sol e0 (⟨e0, tl, []⟩ : EmSim G P K) := ⟨fun _ => rfl, fun l t ds h => by simp at h⟩
  have hr := emRun_inv sol e0 (some d) tScOn steps ⟨e0, tl, []⟩ hd hi
  set r := emRun sol (some d) tScOn ⟨e0, tl, []⟩ steps with hrd
  have hlog' : r.log = (l ++ [(t0, c0)]) ++ [(t1, c1)] := by rw [hlog]; simp
  obtain ⟨q1, q2, q3, ox, oy, o1, o2, -, o3⟩ := hr.2 _ _ _ hlog'
  obtain ⟨x1, y1⟩ := o3 l t0 c0 rfl
  unfold emField
  rw [o1, o2, q1, q2, q3, ht]
  show Except.ok _ = Except.ok _
  rw [x1, y1]
  congr 1
  unfold fieldsOf
  ext
  · rfl
  · rfl
  · show 1 / (beta * c) * _ = _ / (beta * c)
    ring
  · show -1 / (beta * c) * _ = -_ / (beta * c)
    ring
  · show -g.ex _ p - -g.ey _ p = g.ey _ p - g.ex _ p
    ring

end em

/-- A one-point "chamber": potentials are the deposited sums, the gathered fields are fixed multiples. -/
def emToy : EmGather ℚ ℚ := ⟨fun v _ => v, fun v _ => 2 * v, fun v _ => v⟩
def emToy0 : EmSt ℚ ℚ := ⟨⟨0, 0⟩, ⟨0, 0⟩, ⟨0, 0⟩, none, none⟩

/-- Non-vacuity of `C87_fields_partial`: two clouds, recomputations at 2 and 4 with `Dt_sc = 2`. -/
example : (emRun id (some 2) 0 (⟨emToy0, 0, []⟩ : EmSim ℚ ℚ ℚ)
      [(1, [⟨1, 1, 1⟩]), (2, [⟨1, 2, 3⟩, ⟨1, 1, 1⟩]), (3, [⟨1, 1, 1⟩]), (4, [⟨2, 3, 4⟩, ⟨1, 5, 1⟩])]).log.map (fun x => x.1) = [2, 4] ∧
    (match emField emToy (1 / 2) 2 (some 2) (emRun id (some 2) 0 (⟨emToy0, 0, []⟩ : EmSim ℚ ℚ ℚ)
      [(1, [⟨1, 1, 1⟩]), (2, [⟨1, 2, 3⟩, ⟨1, 1, 1⟩]), (3, [⟨1, 1, 1⟩]), (4, [⟨2, 3, 4⟩, ⟨1, 5, 1⟩])]).em (0, 0) with
     | .ok r => decide (r = (3 - 5 / 2, 6 - 1 / 2, 1 / 2, -5 / 2, 16 - 5))
     | .error _ => false) = true := by
  decide +kernel

/-- C87 fails when the recomputations are not `Dt_sc` apart: with `Dt_sc = 3/2` and steps of 1 they are 2 apart, and the
horizontal field differs from `-grad phi - dA/dt` over the actual time. -/
theorem C87_interval_violated :
    ∃ (steps : List (ℚ × List (EmDep ℚ))) (l : List (ℚ × List (EmDep ℚ))) (t0 t1 : ℚ) (c0 c1 : List (EmDep ℚ)) (v : ℚ × ℚ × ℚ × ℚ × ℚ),
      (emRun id (some (3 / 2)) 0 (⟨emToy0, 0, []⟩ : EmSim ℚ ℚ ℚ) steps).log.map (fun x => (x.1, x.2.map (fun d => d.jx))) =
        (l ++ [(t0, c0), (t1, c1)]).map (fun x => (x.1, x.2.map (fun d => d.jx))) ∧
      (match emField emToy (1 / 2) 2 (some (3 / 2)) (emRun id (some (3 / 2)) 0 (⟨emToy0, 0, []⟩ : EmSim ℚ ℚ ℚ) steps).em (0, 0) with
       | .ok r => decide (r = v)
       | .error _ => false) = true ∧
      v.1 ≠ emToy.ex (potQ id c1) (0, 0) - (emToy.phi (potX id c1) (0, 0) - emToy.phi (potX id c0) (0, 0)) / (t1 - t0) := by
  refine ⟨[(1, [⟨1, 1, 1⟩]), (2, [⟨1, 1, 1⟩]), (3, [⟨1, 1, 1⟩]), (4, [⟨1, 4, 1⟩])], [], 2, 4, [⟨1, 1, 1⟩], [⟨1, 4, 1⟩],
    (-1, 2, 0, -2, 7), ?_, ?_, ?_⟩ <;> decide +kernel

/-- C87 fails at the first recomputation: the code intends a vanishing time derivative ("If first passage set
derivatives to zero"), but the derivative is taken with respect to the empty solver. -/
theorem C87_first_violated :
    ∃ (steps : List (ℚ × List (EmDep ℚ))) (v : ℚ × ℚ × ℚ × ℚ × ℚ),
      (emRun id (some 1) 0 (⟨emToy0, 0, []⟩ : EmSim ℚ ℚ ℚ) steps).log.length = 1 ∧
      (match emField emToy (1 / 2) 2 (some 1) (emRun id (some 1) 0 (⟨emToy0, 0, []⟩ : EmSim ℚ ℚ ℚ) steps).em (0, 0) with
       | .ok r => decide (r = v)
       | .error _ => false) = true ∧ v.1 ≠ 1 ∧ v.2.2.1 ≠ 0 := by
  refine ⟨[(1, [⟨1, 1, 3⟩])], (0, -1, 3, -1, -1), ?_, ?_, ?_⟩ <;> decide +kernel

/-- C87 fails for restarts: after `load_state` the vector potential is a copy of the scalar potential, and the fields
differ from those before saving. -/
theorem C87_restart_violated :
    ∃ (steps : List (ℚ × List (EmDep ℚ))),
      (match emField emToy (1 / 2) 2 (some 1) (emRun id (some 1) 0 (⟨emToy0, 0, []⟩ : EmSim ℚ ℚ ℚ) steps).em (0, 0),
        emField emToy (1 / 2) 2 (some 1) (emLoad (emRun id (some 1) 0 (⟨emToy0, 0, []⟩ : EmSim ℚ ℚ ℚ) steps).em) (0, 0) with
       | .ok a, .ok b => decide (a.2.2.2.2 ≠ b.2.2.2.2)
       | _, _ => false) = true := by
  exact ⟨[(1, [⟨1, 1, 3⟩]), (2, [⟨1, 1, 5⟩])], by decide +kernel⟩

/-! ### C88 -/

section sizes
open Real

/-- C88: a size given in the beam file is used unchanged. -/
theorem C88_given (gamma sigma : ℝ) (o : Optics) (ne : Option ℝ) (dpp : ℝ) (h : sigma ≠ -1) :
    beamSize gamma sigma o ne dpp = .ok sigma := by
  unfold beamSize
  rw [if_neg h]

/-- C88: otherwise the input is refused exactly when the beta function or the dispersion is missing in both the beam
file and the machine file, or the emittance is missing. -/
theorem C88_refused_iff (gamma : ℝ) (b m : Optics) (ne : Option ℝ) (dpp : ℝ) :
    (∃ e, beamSize gamma (-1) (b.orElse m) ne dpp = .error e) ↔
      (b.betaf = none ∧ m.betaf = none) ∨ (b.disp = none ∧ m.disp = none) ∨ ne = none := by
  unfold beamSize Optics.orElse
  rw [if_pos rfl]
  rcases b with ⟨b1, b2⟩
  rcases m with ⟨m1, m2⟩
  cases b1 <;> cases m1 <;> cases ne <;> cases b2 <;> cases m2 <;> simp

/-- C88: and the size satisfies `sigma² = beta * epsilon_n / (p / m c) + (D delta)²`, where the values of the beam file
have precedence over those of the machine file, and `p / m c = sqrt (gamma² - 1)`. -/
theorem C88_emittance (gamma bet en d dpp : ℝ) (b m : Optics) (hg : 1 < gamma) (hb : 0 < bet) (he : 0 < en)
    (h1 : b.betaf = some bet ∨ (b.betaf = none ∧ m.betaf = some bet))
    (h2 : b.disp = some d ∨ (b.disp = none ∧ m.disp = some d)) :
    ∃ s, beamSize gamma (-1) (b.orElse m) (some en) dpp = .ok s ∧ 0 < s ∧
      s ^ 2 = bet * en / √(gamma ^ 2 - 1) + (d * dpp) ^ 2 := by
  have e1 : (b.orElse m).betaf = some bet := by
    rcases h1 with h | ⟨h, h'⟩
    · simp [Optics.orElse, h]
    · simp [Optics.orElse, h, h']
  have e2 : (b.orElse m).disp = some d := by
    rcases h2 with h | ⟨h, h'⟩
    · simp [Optics.orElse, h]
    · simp [Optics.orElse, h, h']
  have hg0 : 0 < gamma := by linarith
  have hbg : betaRel gamma * gamma = √(gamma ^ 2 - 1) := by
    have h : gamma ^ 2 - 1 = (1 - 1 / (gamma * gamma)) * gamma ^ 2 := by field_simp
    rw [h, Real.sqrt_mul' _ (by positivity), Real.sqrt_sq hg0.le]
    rfl
  have hp : 0 < √(gamma ^ 2 - 1) := Real.sqrt_pos.2 (by nlinarith)
  have hpos : 0 < bet * (en / √(gamma ^ 2 - 1)) + d ^ 2 * dpp ^ 2 := by positivity
  refine ⟨√(bet * (en / (betaRel gamma * gamma)) + d ^ 2 * dpp ^ 2), ?_, ?_, ?_⟩
  · unfold beamSize
    rw [if_pos rfl, e1, e2]
  · rw [hbg]; exact Real.sqrt_pos.2 hpos
  · rw [hbg, Real.sq_sqrt hpos.le]
    ring

/-- C88, energy: a particle of momentum `p` and mass `m` has the total energy of the beam file when `E² = (p c)² + (m c²)²`. The
speed used by the code is then `p c² / E`, and the size it computes satisfies `sigma² = beta * epsilon_n * m c / p + (D delta)²`. -/
theorem C88_energy (energyEV qe m0 c p bet en d dpp : ℝ) (hqe : 0 < qe) (hm : 0 < m0) (hc : 0 < c) (hp : 0 < p) (hE : 0 < energyEV)
    (hrel : (energyEV * qe) ^ 2 = (p * c) ^ 2 + (m0 * c ^ 2) ^ 2) (hb : 0 < bet) (he : 0 < en) :
    betaRel (gammaRel energyEV qe m0 c) * c = p * c ^ 2 / (energyEV * qe) ∧
    ∃ s, beamSize (gammaRel energyEV qe m0 c) (-1) ⟨some bet, some d⟩ (some en) dpp = .ok s ∧ 0 < s ∧
      s ^ 2 = bet * en * (m0 * c) / p + (d * dpp) ^ 2 := by
  have hEp : 0 < energyEV * qe := mul_pos hE hqe
  have hg0 : 0 < gammaRel energyEV qe m0 c := div_pos hEp (by positivity)
  have hgsq : gammaRel energyEV qe m0 c ^ 2 - 1 = (p / (m0 * c)) ^ 2 := by
    unfold gammaRel
    rw [div_pow, hrel]
    field_simp
    ring
  have hg1 : 1 < gammaRel energyEV qe m0 c := by
    have : 0 < (p / (m0 * c)) ^ 2 := by positivity
    nlinarith
  have hroot : √(gammaRel energyEV qe m0 c ^ 2 - 1) = p / (m0 * c) := by
    rw [hgsq, Real.sqrt_sq (by positivity)]
  constructor
  · have h : 1 - 1 / (gammaRel energyEV qe m0 c * gammaRel energyEV qe m0 c) = (p / (m0 * c) / gammaRel energyEV qe m0 c) ^ 2 := by
      rw [div_pow, ← hgsq]
      field_simp
    unfold betaRel
    rw [h, Real.sqrt_sq (by positivity)]
    unfold gammaRel
    field_simp
  · obtain ⟨s, h1, h2, h3⟩ := C88_emittance (gammaRel energyEV qe m0 c) bet en d dpp ⟨some bet, some d⟩ ⟨none, none⟩ hg1 hb he (Or.inl rfl) (Or.inl rfl)
    refine ⟨s, h1, h2, ?_⟩
    rw [h3, hroot]
    field_simp

/-- Non-vacuity: a particle with `p c = 4`, `m c² = 3` and total energy `5`. -/
example : ((5 : ℝ) * 1) ^ 2 = (4 * 1) ^ 2 + (3 * 1 ^ 2) ^ 2 := by norm_num

/-- Non-vacuity: beta from the beam file, dispersion from the machine file. -/
example : ∃ s, beamSize 2 (-1) (Optics.orElse ⟨some 3, none⟩ ⟨some 7, some 2⟩) (some 5) 1 = .ok s ∧ 0 < s := by
  obtain ⟨s, h, h0, -⟩ := C88_emittance 2 3 5 2 1 ⟨some 3, none⟩ ⟨some 7, some 2⟩ (by norm_num) (by norm_num) (by norm_num)
    (Or.inl rfl) (Or.inr ⟨rfl, rfl⟩)
  exact ⟨s, h, h0⟩

end sizes

end PyECLOUD
