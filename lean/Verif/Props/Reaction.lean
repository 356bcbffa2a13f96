import Verif.Spec.Reaction
import Verif.Props.Grid
import Verif.Props.PyHT
import Mathlib.Algebra.BigOperators.Ring.Finset

/-!
# Property C179: actions and reactions
-/

namespace PyECLOUD

set_option linter.unusedSectionVars false

variable {K : Type} [Field K] [LinearOrder K] [IsStrictOrderedRing K] [FloorRing K]

omit [LinearOrder K] [IsStrictOrderedRing K] [FloorRing K] in
theorem gridSum_opposite (nx ny : ℕ) (G : ℕ × ℕ → ℕ × ℕ → K) (h : ∀ k l, G k l = -G l k) (u v : ℕ → ℕ → K) :
    gridSum nx ny (fun i j => u i j * gridSum nx ny (fun a b => G (i, j) (a, b) * v a b)) =
      -gridSum nx ny (fun i j => v i j * gridSum nx ny (fun a b => G (i, j) (a, b) * u a b)) := by
  have hp : ∀ f : ℕ → ℕ → K, gridSum nx ny f = ∑ k ∈ Finset.Icc 1 nx ×ˢ Finset.Icc 1 ny, f k.1 k.2 := by
    intro f
    unfold gridSum
    rw [Finset.sum_product]
  simp only [hp, Finset.mul_sum]
  rw [← Finset.sum_neg_distrib, Finset.sum_comm]
  refine Finset.sum_congr rfl (fun k _ => ?_)
  rw [← Finset.sum_neg_distrib]
  refine Finset.sum_congr rfl (fun l _ => ?_)
  rw [h (l.1, l.2) (k.1, k.2)]
  ring

/-- **C179** (pairs). Two sets of charges on the same grid: the force of the second on the first is opposite to the force of the first on the second, whatever their
positions relative to the nodes. -/
theorem C179_pair (nx ny : ℕ) (bx yb dh : K) (solver : (ℕ → ℕ → K) → ℕ → ℕ → K) (hs : EqualOpposite nx ny solver) (A B : List (K × K × K)) :
    forceOn (intField nx ny bx yb dh dh (solver (computeRho nx ny bx yb dh B))) A =
      -forceOn (intField nx ny bx yb dh dh (solver (computeRho nx ny bx yb dh A))) B := by
  obtain ⟨G, h1, h2⟩ := hs
  unfold forceOn
  rw [C22_adjoint, C22_adjoint]
  simp only [h2]
  exact gridSum_opposite nx ny G h1 _ _

/-- **C179** (no self-force). The charges of a cloud exert no force on the cloud as a whole. -/
theorem C179_self (nx ny : ℕ) (bx yb dh : K) (solver : (ℕ → ℕ → K) → ℕ → ℕ → K) (hs : EqualOpposite nx ny solver) (A : List (K × K × K)) :
    forceOn (intField nx ny bx yb dh dh (solver (computeRho nx ny bx yb dh A))) A = 0 := by
  have := C179_pair nx ny bx yb dh solver hs A A
  linarith

/-- **C179** (a single macroparticle). A macroparticle does not feel its own field, wherever it is between the nodes. -/
theorem C179_alone (nx ny : ℕ) (bx yb dh : K) (solver : (ℕ → ℕ → K) → ℕ → ℕ → K) (hs : EqualOpposite nx ny solver) (x y w : K) (hw : w ≠ 0) :
    intField nx ny bx yb dh dh (solver (computeRho nx ny bx yb dh [(x, y, w)])) x y = 0 := by
  have := C179_self nx ny bx yb dh solver hs [(x, y, w)]
  unfold forceOn at this
  simpa [hw] using this

/-- the charges per metre of a slice: the particles of a macroparticle of the beam, over the length of the slice, times the charge of a particle -/
def sliceCharges (g : EcCfg K) (ppm : K) (sl : SliceIn K) : List (K × K × K) :=
  sl.pos.map (fun q => (q.1 + g.xOff, q.2 + g.yOff, ppm / sl.dz * g.charge))

theorem zip_slope_sum (l : List (K × K)) (v : List (K × K)) (hl : l.length = v.length) (F : K × K → K × K → K × K) (e : K × K → K)
    (h : ∀ q u, (F q u).1 - u.1 = e q) :
    ((List.zipWith F l v).map Prod.fst).sum - (v.map Prod.fst).sum = (l.map e).sum := by
  induction l generalizing v with
  | nil =>
    cases v with
    | nil => simp
    | cons a v => simp at hl
  | cons q l ih =>
    cases v with
    | nil => simp at hl
    | cons u v =>
      have := ih v (by simpa using hl)
      simp only [List.zipWith_cons_cons, List.map_cons, List.sum_cons]
      rw [← this, ← h q u]
      ring

theorem zip_slope_sum_snd (l : List (K × K)) (v : List (K × K)) (hl : l.length = v.length) (F : K × K → K × K → K × K) (e : K × K → K)
    (h : ∀ q u, (F q u).2 - u.2 = e q) :
    ((List.zipWith F l v).map Prod.snd).sum - (v.map Prod.snd).sum = (l.map e).sum := by
  induction l generalizing v with
  | nil =>
    cases v with
    | nil => simp
    | cons a v => simp at hl
  | cons q l ih =>
    cases v with
    | nil => simp at hl
    | cons u v =>
      have := ih v (by simpa using hl)
      simp only [List.zipWith_cons_cons, List.map_cons, List.sum_cons]
      rw [← this, ← h q u]
      ring

/-- **C179** (beam and cloud). When a slice interacts with a cloud whose field comes from a solver as above, the transverse momentum the slice gains
(particles per macroparticle times `m gamma beta c` times the change of the slopes, summed) is opposite to the impulse of the field of the slice, during the time
the slice takes to pass, on the cloud over its length. The cloud is taken where it is when the beam is kicked, i.e. after it has been moved. -/
theorem C179_beam {C : Type} (g : EcCfg K) (m : EcSim K C ((ℕ → ℕ → K) × (ℕ → ℕ → K))) (nx ny : ℕ) (bx yb dh : K)
    (solX solY : (ℕ → ℕ → K) → ℕ → ℕ → K) (hX : EqualOpposite nx ny solX) (hY : EqualOpposite nx ny solY) (charges : C → List (K × K × K))
    (hsolve : ∀ c, m.solve c = (solX (computeRho nx ny bx yb dh (charges c)), solY (computeRho nx ny bx yb dh (charges c))))
    (hgather : ∀ f x y, m.gather f x y = (intField nx ny bx yb dh dh f.1 x y, intField nx ny bx yb dh dh f.2 x y))
    (force : Bool) (s s' : EcSt K C ((ℕ → ℕ → K) × (ℕ → ℕ → K))) (sl sl' : SliceIn K) (ppm : K)
    (hl : sl.pos.length = sl.slope.length) (hi : sl.interacts = true) (hkx : g.kickX = true) (hky : g.kickY = true)
    (hz : sl.dz ≠ 0) (hb : g.beta ≠ 0) (hc : g.c ≠ 0) (hm : g.mass ≠ 0) (hg : g.gamma ≠ 0)
    (h : trackSlice g m force s sl = .ok (s', sl')) :
    ∃ s1 np c, ecBunch g m force s sl.info = .ok (s1, np) ∧
      m.move (callOf g sl s1.cur s1.tSim np) (beamOf g sl) s1.field s1.cloud = .ok c ∧
      ppm * (g.mass * g.gamma * g.beta * g.c) * ((sl'.slope.map Prod.fst).sum - (sl.slope.map Prod.fst).sum) =
        -(g.len * g.dtSlice sl * forceOn (intField nx ny bx yb dh dh (solX (computeRho nx ny bx yb dh (sliceCharges g ppm sl)))) (charges c)) ∧
      ppm * (g.mass * g.gamma * g.beta * g.c) * ((sl'.slope.map Prod.snd).sum - (sl.slope.map Prod.snd).sum) =
        -(g.len * g.dtSlice sl * forceOn (intField nx ny bx yb dh dh (solY (computeRho nx ny bx yb dh (sliceCharges g ppm sl)))) (charges c)) := by
  obtain ⟨s1, np, c, c2, h1, h2, -, -, -, h6, -⟩ := trackSlice_interacting g m force s s' sl sl' hi h
  refine ⟨s1, np, c, h1, h2, ?_⟩
  have key : ∀ (sol : (ℕ → ℕ → K) → ℕ → ℕ → K), EqualOpposite nx ny sol →
      ppm * (g.mass * g.gamma * g.beta * g.c) * ((sl.pos.map (fun q => g.charge / (g.mass * g.beta * g.beta * g.gamma * g.c * g.c) * g.len *
        intField nx ny bx yb dh dh (sol (computeRho nx ny bx yb dh (charges c))) (q.1 + g.xOff) (q.2 + g.yOff))).sum) =
      -(g.len * g.dtSlice sl * forceOn (intField nx ny bx yb dh dh (sol (computeRho nx ny bx yb dh (sliceCharges g ppm sl)))) (charges c)) := by
    intro sol hsol
    rw [C179_pair nx ny bx yb dh sol hsol (charges c) (sliceCharges g ppm sl)]
    unfold forceOn sliceCharges EcCfg.dtSlice
    rw [List.map_map]
    simp only [Function.comp_def]
    rw [List.sum_map_mul_left, List.sum_map_mul_left]
    field_simp
  subst h6
  constructor
  · rw [← key solX hX]
    congr 1
    unfold ecKick
    refine zip_slope_sum sl.pos sl.slope hl _ _ ?_
    intro q u
    rw [hkx, hgather, hsolve]
    simp
  · rw [← key solY hY]
    congr 1
    unfold ecKick
    refine zip_slope_sum_snd sl.pos sl.slope hl _ _ ?_
    intro q u
    rw [hky, hgather, hsolve]
    simp

/-- the field of charges in free space, at the nodes of a grid, up to a factor: horizontal component, and with `sw` the vertical one -/
def freeSpace (nx ny : ℕ) (k : K) (sw : Bool) (rho : ℕ → ℕ → K) (i j : ℕ) : K :=
  gridSum nx ny (fun a b => k * (if sw then (j : K) - (b : K) else (i : K) - (a : K)) / (((i : K) - (a : K)) ^ 2 + ((j : K) - (b : K)) ^ 2) * rho a b)

omit [LinearOrder K] [IsStrictOrderedRing K] [FloorRing K] in
theorem freeSpace_opposite (nx ny : ℕ) (k : K) (sw : Bool) : EqualOpposite nx ny (freeSpace nx ny k sw) := by
  refine ⟨fun p q => k * (if sw then (p.2 : K) - (q.2 : K) else (p.1 : K) - (q.1 : K)) / (((p.1 : K) - (q.1 : K)) ^ 2 + ((p.2 : K) - (q.2 : K)) ^ 2), ?_,
    fun _ _ _ => rfl⟩
  intro p q
  have e : ((p.1 : K) - (q.1 : K)) ^ 2 + ((p.2 : K) - (q.2 : K)) ^ 2 = ((q.1 : K) - (p.1 : K)) ^ 2 + ((q.2 : K) - (p.2 : K)) ^ 2 := by ring
  dsimp only
  rw [e, ← neg_div]
  congr 1
  cases sw
  · simp only [Bool.false_eq_true, if_false]; ring
  · simp only [if_true]; ring

/-- the hypotheses are met by the field of charges in free space; two clouds push one another with a force that is not zero -/
example : forceOn (intField 4 4 (0 : ℚ) 0 1 1 (freeSpace 4 4 1 false (computeRho 4 4 0 0 1 [(1 / 2, 1 / 3, 2), (3 / 4, 5 / 2, 1)])))
      [(5 / 2, 5 / 4, 3)] ≠ 0 ∧ EqualOpposite (K := ℚ) 4 4 (freeSpace 4 4 1 false) :=
  ⟨by decide +kernel, freeSpace_opposite 4 4 1 false⟩

/-- a cloud of two macroparticles in free space, for the slices of the example of C81 -/
def freeCloud : EcSim ℚ (List (ℚ × ℚ × ℚ)) ((ℕ → ℕ → ℚ) × (ℕ → ℕ → ℚ)) where
  init := [(1 / 2, 1 / 3, -2), (3 / 4, 5 / 2, -1)]
  move := fun call _ _ c => .ok (c.map (fun p => (p.1 + call.dt / 100, p.2.1, p.2.2)))
  solve := fun c => (freeSpace 4 4 1 false (computeRho 4 4 0 0 1 c), freeSpace 4 4 1 true (computeRho 4 4 0 0 1 c))
  maint := fun _ c => .ok c
  gather := fun f x y => (intField 4 4 0 0 1 1 f.1 x y, intField 4 4 0 0 1 1 f.2 x y)
  tScOn := 0
  dtSc := none

/-- a slice goes through a cloud in free space and is kicked in both planes -/
example : ∃ r, trackSlice ecToyCfg freeCloud false ⟨0, 0, 0, freeCloud.init, (fun _ _ => 0, fun _ _ => 0), [], 0, 0, []⟩
      ⟨1, none, [(5 / 2, 5 / 4), (1, 1)], [(0, 0), (0, 0)]⟩ = .ok r ∧
    ((r.2.slope.map Prod.fst).sum ≠ 0 ∧ (r.2.slope.map Prod.snd).sum ≠ 0) := by
  refine exists_okT ?_
  decide +kernel

end PyECLOUD
