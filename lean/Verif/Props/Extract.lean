import Verif.Model.Extract
import Verif.Props.Yield
import Verif.Lemmas.Sey
import Verif.Lemmas.Hist

/-!
# The test of the surface model at start-up (C98, C99)
-/

set_option linter.unusedSectionVars false

namespace PyECLOUD

open Real

/-! ## The test impacts -/

/-- **C98**, the test impacts: an impact made for an energy and an angle has this kinetic energy, and the normal component of its
velocity is the cosine times its speed. -/
theorem C98_test_impacts (qe mass ene ct : ℝ) (hq : 0 < qe) (hm : 0 < mass) (he : 0 ≤ ene) (h0 : 0 ≤ ct) (h1 : ct ≤ 1) :
    let i := testImpact sqrt qe mass ene ct
    0.5 * mass / qe * (i.vx ^ 2 + i.vy ^ 2 + i.vz ^ 2) = ene ∧ i.vn = i.vx * i.nx + i.vy * i.ny ∧
    i.vn = ct * √(i.vx ^ 2 + i.vy ^ 2 + i.vz ^ 2) ∧ i.nx ^ 2 + i.ny ^ 2 = 1 ∧ i.nel = 1 ∧ i.en = ene ∧ i.cth = ct := by
  have hs : √(1 - ct * ct) * √(1 - ct * ct) = 1 - ct * ct := mul_self_sqrt (by nlinarith)
  have hv0 : 0 ≤ 2 * ene * qe / mass := by positivity
  have hv : √(2 * ene * qe / mass) * √(2 * ene * qe / mass) = 2 * ene * qe / mass := mul_self_sqrt hv0
  have hsum : (√(2 * ene * qe / mass) * 1 * ct * 1) ^ 2 + (√(2 * ene * qe / mass) * 1 * √(1 - ct * ct) * 1) ^ 2 + (1 * 0 : ℝ) ^ 2
      = 2 * ene * qe / mass := by
    have : (√(2 * ene * qe / mass) * 1 * ct * 1) ^ 2 + (√(2 * ene * qe / mass) * 1 * √(1 - ct * ct) * 1) ^ 2 + (1 * 0 : ℝ) ^ 2
        = (√(2 * ene * qe / mass) * √(2 * ene * qe / mass)) * (ct * ct + √(1 - ct * ct) * √(1 - ct * ct)) := by ring
    rw [this, hs, hv]
    ring
  dsimp only [testImpact]
  refine ⟨?_, by ring, ?_, by norm_num, rfl, mul_one _, mul_one _⟩
  · rw [hsum]
    field_simp
    norm_num
  · rw [hsum]
    ring

example : (testImpact sqrt 1 2 4 0.6).en = 4 ∧ (testImpact sqrt (1 : ℝ) 2 4 0.6).vx = 1.2 := by
  have : √((2 : ℝ) * 4 * 1 / 2) = 2 := by
    rw [show (2 : ℝ) * 4 * 1 / 2 = 2 ^ 2 by norm_num]
    exact sqrt_sq (by norm_num)
  constructor
  · norm_num [testImpact]
  · simp only [testImpact, this]
    norm_num

/-! ## Helper lemmas -/

theorem sum_const_filter (l : List Bool) (b : Bool) (d : ℝ) :
    (((l.map (fun t => (d, t))).filter (fun q => q.2 == b)).map (fun q => q.1)).sum = d * ((l.count b : ℕ) : ℝ) := by
  induction l with
  | nil => simp
  | cons a l ih =>
    simp only [List.map_cons, List.filter_cons, List.count_cons]
    cases h : (a == b)
    · simpa using ih
    · simp only [if_true, List.map_cons, List.sum_cons, ih]
      push_cast
      ring

theorem mapIdx_replicate_const {α : Type} (n : ℕ) (i : Impact ℝ) (f : ℕ → Impact ℝ → α) :
    (List.replicate n i).mapIdx f = (List.range n).map (fun k => f k i) := by
  apply List.ext_getElem?
  intro k
  by_cases hk : k < n
  · rw [List.getElem?_mapIdx, List.getElem?_replicate, if_pos hk, List.getElem?_map, List.getElem?_range hk]
    rfl
  · rw [List.getElem?_eq_none (by simpa using hk), List.getElem?_eq_none (by simpa using hk)]

/-- How many of the first `n` draws are below a threshold. -/
noncomputable def drawsBelow (n : ℕ) (u : ℕ → ℝ) (r : ℝ) : ℕ := (List.range n).countP (fun k => decide (u k < r))

theorem curvePoint_const (nRep : ℕ) (hn : 0 < nRep) (i : Impact ℝ) (hi : i.nel = 1) (y : ℝ × ℝ) (u : ℕ → ℝ) (b : Bool) :
    curvePoint (List.replicate nRep i) ((List.range nRep).map (fun k => seyProcess y i.nel (u k))) b
      = y.1 * ((if b then drawsBelow nRep u y.2 else nRep - drawsBelow nRep u y.2 : ℕ) : ℝ) / nRep := by
  unfold curvePoint
  have h1 : (List.range nRep).map (fun k => seyProcess y i.nel (u k))
      = ((List.range nRep).map (fun k => decide (u k < y.2))).map (fun t => (y.1, t)) := by
    rw [List.map_map]
    apply List.map_congr_left
    intro k _
    simp [seyProcess, hi]
  have h2 : ((List.replicate nRep i).map (fun i => i.nel)).sum = (nRep : ℝ) := by
    rw [List.map_replicate, hi, List.sum_replicate]
    simp
  rw [h1, sum_const_filter, h2]
  have h3 : ((List.range nRep).map (fun k => decide (u k < y.2))).count true = drawsBelow nRep u y.2 := by
    rw [drawsBelow, List.count, List.countP_map]
    congr 1
    funext k
    simp
  have h4 : ((List.range nRep).map (fun k => decide (u k < y.2))).count false = nRep - drawsBelow nRep u y.2 := by
    have hl : ((List.range nRep).map (fun k => decide (u k < y.2))).length = nRep := by simp
    have : ∀ l : List Bool, l.count false + l.count true = l.length := by
      intro l
      induction l with
      | nil => rfl
      | cons a l ih => cases a <;> simp [List.count_cons] <;> omega
    have := this ((List.range nRep).map (fun k => decide (u k < y.2)))
    rw [hl, h3] at this
    omega
  cases b
  · rw [h4]; simp
  · rw [h3]; simp

/-- the extracted values of one point -/
def ExtractedAt (nRep : ℕ) (y : ℝ × ℝ) (u : ℕ → ℝ) (v : ℝ × ℝ) : Prop :=
  v.1 + v.2 = y.1 ∧ v.1 = y.1 * ((drawsBelow nRep u y.2 : ℕ) : ℝ) / nRep ∧ (0 ≤ y.1 → 0 ≤ v.1 ∧ 0 ≤ v.2)

theorem extractedAt_const (nRep : ℕ) (hn : 0 < nRep) (i : Impact ℝ) (hi : i.nel = 1) (y : ℝ × ℝ) (u : ℕ → ℝ) :
    ExtractedAt nRep y u
      (curvePoint (List.replicate nRep i) ((List.range nRep).map (fun k => seyProcess y i.nel (u k))) true,
       curvePoint (List.replicate nRep i) ((List.range nRep).map (fun k => seyProcess y i.nel (u k))) false) := by
  have hle : drawsBelow nRep u y.2 ≤ nRep := by
    have := List.countP_le_length (p := fun k => decide (u k < y.2)) (l := List.range nRep)
    simpa [drawsBelow] using this
  have hn' : (nRep : ℝ) ≠ 0 := by
    have : (0 : ℝ) < nRep := by exact_mod_cast hn
    exact this.ne'
  rw [curvePoint_const nRep hn i hi y u true, curvePoint_const nRep hn i hi y u false]
  simp only [if_true, Bool.false_eq_true, if_false]
  refine ⟨?_, rfl, fun hy => ⟨by positivity, by positivity⟩⟩
  show _ + _ = _
  rw [Nat.cast_sub hle]
  field_simp
  ring

/-! ## Yield curves -/

/-- **C98**, yield curves of the models with one yield function (ECLOUD, low-energy variants, tables): at every test
energy and angle, with any number of repetitions and any random numbers, the elastic and the true secondary curve add up to the
yield, and the elastic part is the fraction of draws that fell below the elastic fraction. -/
theorem C98_curves (yld : ℝ → ℝ → ℝ × ℝ) (u : ℕ → ℕ → ℝ) (qe mass : ℝ) (nRep : ℕ) (hn : 0 < nRep) (cts enes : List ℝ) :
    ∃ r, extractSey (uniformProc yld u) (testImpact sqrt qe mass) nRep 0 (sweep cts enes) () = .ok (r, ()) ∧
      r.length = (sweep cts enes).length ∧
      ∀ (k : ℕ) (ct e : ℝ) (v : ℝ × ℝ), (sweep cts enes)[k]? = some (ct, e) → r[k]? = some v →
        ExtractedAt nRep (yld e ct) (u k) v := by
  have key : ∀ (l : List (ℝ × ℝ)) (n : ℕ), ∃ r, extractSey (uniformProc yld u) (testImpact sqrt qe mass) nRep n l () = .ok (r, ()) ∧
      r.length = l.length ∧ ∀ (k : ℕ) (ct e : ℝ) (v : ℝ × ℝ), l[k]? = some (ct, e) → r[k]? = some v →
        ExtractedAt nRep (yld e ct) (u (n + k)) v := by
    intro l
    induction l with
    | nil => exact fun n => ⟨[], rfl, rfl, fun k ct e v h => by simp at h⟩
    | cons p l ih =>
      intro n
      obtain ⟨ct0, e0⟩ := p
      obtain ⟨r, h1, h2, h3⟩ := ih (n + 1)
      refine ⟨(curvePoint (List.replicate nRep (testImpact sqrt qe mass e0 ct0))
          ((List.replicate nRep (testImpact sqrt qe mass e0 ct0)).mapIdx (fun k i => seyProcess (yld i.en i.cth) i.nel (u n k))) true,
        curvePoint (List.replicate nRep (testImpact sqrt qe mass e0 ct0))
          ((List.replicate nRep (testImpact sqrt qe mass e0 ct0)).mapIdx (fun k i => seyProcess (yld i.en i.cth) i.nel (u n k))) false)
        :: r, ?_, ?_, ?_⟩
      · simp only [extractSey, uniformProc] at h1 ⊢
        rw [h1]
      · simp [h2]
      · intro k ct e v hk hv
        cases k with
        | zero =>
          simp only [List.getElem?_cons_zero, Option.some.injEq, Prod.mk.injEq] at hk hv
          obtain ⟨rfl, rfl⟩ := hk
          rw [← hv, mapIdx_replicate_const]
          have := extractedAt_const nRep hn (testImpact sqrt qe mass e0 ct0) rfl (yld e0 ct0) (u n)
          simpa [testImpact] using this
        | succ k =>
          have := h3 k ct e v (by simpa using hk) (by simpa using hv)
          rwa [show n + 1 + k = n + (k + 1) by omega] at this
  obtain ⟨r, h1, h2, h3⟩ := key (sweep cts enes) 0
  exact ⟨r, h1, h2, fun k ct e v hk hv => by simpa using h3 k ct e v hk hv⟩

/-- the rows of the extracted matrices are the angles, the columns the energies -/
theorem sweep_getElem? (cts enes : List ℝ) (a b : ℕ) (ct e : ℝ) (ha : cts[a]? = some ct) (hb : enes[b]? = some e) :
    (sweep cts enes)[a * enes.length + b]? = some (ct, e) := by
  have hbl : b < enes.length := (List.getElem?_eq_some_iff.1 hb).1
  unfold sweep
  induction cts generalizing a with
  | nil => simp at ha
  | cons c l ih =>
    rw [List.flatMap_cons]
    cases a with
    | zero =>
      simp only [List.getElem?_cons_zero, Option.some.injEq] at ha
      rw [zero_mul, zero_add, List.getElem?_append_left (by simpa using hbl), List.getElem?_map, hb, ha]
      rfl
    | succ a =>
      rw [List.getElem?_append_right (by rw [List.length_map]; nlinarith [Nat.zero_le (a * enes.length)])]
      rw [List.length_map, show (a + 1) * enes.length + b - enes.length = a * enes.length + b by
        rw [Nat.succ_mul]; omega]
      exact ih a (by simpa using ha)

/-- **C98**: the entry of the extracted matrices in the row of an angle and the column of an energy is the yield at that angle
and energy. -/
theorem C98_matrix (yld : ℝ → ℝ → ℝ × ℝ) (u : ℕ → ℕ → ℝ) (qe mass : ℝ) (nRep : ℕ) (hn : 0 < nRep) (cts enes : List ℝ) :
    ∃ r, extractSey (uniformProc yld u) (testImpact sqrt qe mass) nRep 0 (sweep cts enes) () = .ok (r, ()) ∧
      r.length = cts.length * enes.length ∧
      ∀ (a b : ℕ) (ct e : ℝ), cts[a]? = some ct → enes[b]? = some e → ∃ v, r[a * enes.length + b]? = some v ∧
        ExtractedAt nRep (yld e ct) (u (a * enes.length + b)) v := by
  obtain ⟨r, h1, h2, h3⟩ := C98_curves yld u qe mass nRep hn cts enes
  have hl : (sweep cts enes).length = cts.length * enes.length := by
    simp [sweep, List.length_flatMap]
  refine ⟨r, h1, h2.trans hl, fun a b ct e ha hb => ?_⟩
  have hk := sweep_getElem? cts enes a b ct e ha hb
  have hlt : a * enes.length + b < r.length := by rw [h2]; exact (List.getElem?_eq_some_iff.1 hk).1
  exact ⟨r[a * enes.length + b], List.getElem?_eq_getElem hlt, h3 _ ct e _ hk (List.getElem?_eq_getElem hlt)⟩

/-- one repetition at normal incidence with the maximum yield 2 and no reflection: the true secondary curve is 2 -/
example : ∃ v, extractSey (uniformProc (yieldECLOUD ⟨300, 2, 0, 150, 1.35, true, true⟩) (fun _ _ => 0.5)) (testImpact sqrt 1 2) 1 0
    (sweep [1] [300]) () = .ok ([v], ()) ∧ v.1 + v.2 = 2 := by
  obtain ⟨r, h1, h2, h3⟩ := C98_curves (yieldECLOUD ⟨300, 2, 0, 150, 1.35, true, true⟩) (fun _ _ => 0.5) 1 2 1 one_pos [1] [300]
  obtain ⟨v, rfl⟩ := List.length_eq_one_iff.1 (h2.trans (by rfl))
  refine ⟨v, h1, (h3 0 1 300 v rfl rfl).1.trans ?_⟩
  norm_num [yieldECLOUD, yieldTrue, yieldRefl]

/-- **C98**, chambers with a yield per segment: the extracted curves are those of the second segment of the chamber; the others
are never tested. -/
theorem C98_nonuniform (e0 : ℝ) (segs : List Segment) (g : Segment) (hg : segs[1]? = some g) (u : ℕ → ℕ → ℝ) (qe mass : ℝ)
    (nRep : ℕ) (hn : 0 < nRep) (cts enes : List ℝ) :
    extractSey (nunifProc e0 segs u) (testImpact sqrt qe mass) nRep 0 (sweep cts enes) ()
      = extractSey (uniformProc (yieldECLOUD (g.par e0)) u) (testImpact sqrt qe mass) nRep 0 (sweep cts enes) () := by
  have hproc : ∀ (n : ℕ) (e ct : ℝ), nunifProc e0 segs u n () (List.replicate nRep (testImpact sqrt qe mass e ct))
      = uniformProc (yieldECLOUD (g.par e0)) u n () (List.replicate nRep (testImpact sqrt qe mass e ct)) := by
    intro n e ct
    set i := testImpact sqrt qe mass e ct with hi
    have hy : yieldNunif e0 segs i = .ok (yieldECLOUD (g.par e0) i.en i.cth) := by
      unfold yieldNunif
      rw [show i.seg = ((1 : ℕ) : ℤ) from rfl, pyGet_nat segs 1 g hg]
    have hm : ∀ m, (List.replicate m i).mapM (yieldNunif e0 segs) = .ok (List.replicate m (yieldECLOUD (g.par e0) i.en i.cth)) := by
      intro m
      induction m with
      | zero => rfl
      | succ m ih =>
        rw [List.replicate_succ, List.mapM_cons, hy, ih]
        rfl
    unfold nunifProc nunifProcess uniformProc
    rw [hm nRep]
    show Except.ok (_, ()) = Except.ok (_, ())
    congr 2
    apply List.ext_getElem?
    intro k
    by_cases hk : k < nRep
    · have hz : ((List.replicate nRep i).zip (List.replicate nRep (yieldECLOUD (g.par e0) i.en i.cth)))[k]?
          = some (i, yieldECLOUD (g.par e0) i.en i.cth) := by
        rw [List.getElem?_zip_eq_some, List.getElem?_replicate, List.getElem?_replicate, if_pos hk, if_pos hk]
        exact ⟨rfl, rfl⟩
      rw [List.getElem?_mapIdx, hz, List.getElem?_mapIdx, List.getElem?_replicate, if_pos hk]
      rfl
    · rw [List.getElem?_eq_none (by simpa using hk), List.getElem?_eq_none (by simpa using hk)]
  have key : ∀ (l : List (ℝ × ℝ)) (n : ℕ), extractSey (nunifProc e0 segs u) (testImpact sqrt qe mass) nRep n l ()
      = extractSey (uniformProc (yieldECLOUD (g.par e0)) u) (testImpact sqrt qe mass) nRep n l () := by
    intro l
    induction l with
    | nil => exact fun n => rfl
    | cons p l ih =>
      intro n
      obtain ⟨ct, e⟩ := p
      simp only [extractSey, hproc]
      rw [show uniformProc (yieldECLOUD (g.par e0)) u n () (List.replicate nRep (testImpact sqrt qe mass e ct))
        = .ok ((List.replicate nRep (testImpact sqrt qe mass e ct)).mapIdx
          (fun k i => seyProcess (yieldECLOUD (g.par e0) i.en i.cth) i.nel (u n k)), ()) from rfl]
      simp only [ih]
  exact key _ 0

/-- a chamber whose second segment has maximum yield 3 while the others have 2 -/
example : ∃ v, extractSey (nunifProc 150 [⟨2, 0, 300, false, 1, 20, 1, 1⟩, ⟨3, 0, 300, false, 1, 20, 1, 1⟩] (fun _ _ => 0.5))
    (testImpact sqrt 1 2) 1 0 (sweep [1] [300]) () = .ok ([v], ()) ∧ v.1 + v.2 = 3 := by
  rw [C98_nonuniform 150 _ ⟨3, 0, 300, false, 1, 20, 1, 1⟩ rfl _ 1 2 1 one_pos]
  obtain ⟨r, h1, h2, h3⟩ := C98_curves (yieldECLOUD ((⟨3, 0, 300, false, 1, 20, 1, 1⟩ : Segment).par 150)) (fun _ _ => 0.5) 1 2 1 one_pos
    [1] [300]
  obtain ⟨v, rfl⟩ := List.length_eq_one_iff.1 (h2.trans (by rfl))
  refine ⟨v, h1, (h3 0 1 300 v rfl rfl).1.trans ?_⟩
  norm_num [yieldECLOUD, yieldTrue, yieldRefl, Segment.par, maskedFrac]

/-! ## Energy distributions -/

section dist

variable {K : Type} [Field K] [LinearOrder K] [IsStrictOrderedRing K] [FloorRing K]

theorem maskSel_const {α : Type} (a : List α) (t : Bool) : maskSel a (List.replicate a.length t) = if t then a else [] := by
  induction a with
  | nil => cases t <;> rfl
  | cons x a ih => cases t <;> simp [maskSel, List.replicate_succ] <;> simpa using ih

theorem npRepeat_elastic (th : K) (evs : List (Impact K × K × Bool)) :
    npRepeat (evs.map (fun e => e.2.2)) (evs.map (fun e => nAdd th e.2.1 e.2.2))
      = List.replicate ((evs.map (fun e => nAdd th e.2.1 e.2.2)).sum) false := by
  induction evs with
  | nil => rfl
  | cons e evs ih =>
    simp only [List.map_cons, npRepeat, ih, List.sum_cons, List.replicate_add]
    cases h : e.2.2
    · rfl
    · simp [nAdd]

/-- **C98**, energy distributions: for the ECLOUD-type models, every emitted macroparticle enters exactly one of the two histograms
once, with its kinetic energy: the macroparticles of the elastic events the elastic one, those of the other events and all added
macroparticles the other, each shared by the two nearest grid energies (`binned`). -/
theorem C98_distribution (hill1 hill2 : List K → Except PyErr (List K)) (ang1 ang2 : ℕ → K → K → K → K × K × K) (th : K)
    (hl1 : ∀ l r, hill1 l = .ok r → r.length = l.length) (hl2 : ∀ l r, hill2 l = .ok r → r.length = l.length)
    (evs : List (Impact K × K × Bool)) (out : SeyOut K) (hok : seyECLOUD hill1 hill2 ang1 ang2 th evs = .ok out)
    (sq : K → K) (ke ene factor : K) (hke : 0 ≤ ke) (hf : 0 < ene * factor) (n : ℕ) (hn : 2 ≤ n) :
    ∃ hE hT, extractEne sq ke ene factor n out (ecloudTypes th evs) true = .ok hE ∧
      extractEne sq ke ene factor n out (ecloudTypes th evs) false = .ok hT ∧
      hE.length = n ∧ hT.length = n ∧
      (∀ k < n, hE.getD k 0 = binned 0 (ene * factor / ((n : K) - 1)) n
        ((maskSel out.replace (evs.map (fun e => e.2.2))).map (fun e => (e.energy sq ke, 1))) k) ∧
      (∀ k < n, hT.getD k 0 = binned 0 (ene * factor / ((n : K) - 1)) n
        ((maskSel out.replace (evs.map (fun e => !e.2.2)) ++ out.new).map (fun e => (e.energy sq ke, 1))) k) ∧
      hE.sum + hT.sum = ((out.replace.length + out.new.length : ℕ) : K) := by
  have ho := seyECLOUD_out hill1 hill2 ang1 ang2 th hl1 hl2 evs out hok
  have hrl : out.replace.length = evs.length := by
    have := congrArg List.length ho.still
    simpa using this
  have hnl : out.new.length = (evs.map (fun e => nAdd th e.2.1 e.2.2)).sum := by
    have := congrArg List.length ho.newStill
    rw [npRepeat_length _ _ (by simp)] at this
    simpa using this
  have hn1 : (0 : K) < (n : K) - 1 := by
    have : (2 : K) ≤ (n : K) := by exact_mod_cast hn
    linarith
  have hdE : 0 < ene * factor / ((n : K) - 1) := div_pos hf hn1
  have hsel : ∀ b : Bool, maskSel (out.replace ++ out.new) ((ecloudTypes th evs).map (fun t => t == b))
      = maskSel out.replace (evs.map (fun e => e.2.2 == b)) ++ (if b then [] else out.new) := by
    intro b
    unfold ecloudTypes
    rw [npRepeat_elastic, List.map_append, maskSel_append _ _ _ _ (by simp [hrl]), List.map_replicate, ← hnl, maskSel_const,
      List.map_map]
    cases b <;> rfl
  have hpos : ∀ e : Emit K, 0 ≤ e.energy sq ke := by
    intro e
    unfold Emit.energy
    dsimp only
    rw [mul_assoc]
    exact mul_nonneg hke (mul_self_nonneg _)
  have hrun : ∀ b : Bool, ∃ h, extractEne sq ke ene factor n out (ecloudTypes th evs) b = .ok h ∧ h.length = n ∧
      (∀ k < n, h.getD k 0 = binned 0 (ene * factor / ((n : K) - 1)) n
        ((maskSel out.replace (evs.map (fun e => e.2.2 == b)) ++ (if b then [] else out.new)).map (fun e => (e.energy sq ke, 1))) k) ∧
      h.sum = ((maskSel out.replace (evs.map (fun e => e.2.2 == b)) ++ (if b then [] else out.new)).length : K) := by
    intro b
    obtain ⟨h, hh⟩ := computeHist_ok 0 (ene * factor / ((n : K) - 1)) hdE (List.replicate n (0 : K)) (by simp; omega)
      ((maskSel out.replace (evs.map (fun e => e.2.2 == b)) ++ (if b then [] else out.new)).map (fun e => (e.energy sq ke, 1)))
      (by
        intro p hp
        obtain ⟨e, -, rfl⟩ := List.mem_map.1 hp
        exact hpos e)
    refine ⟨h, ?_, ?_, ?_, ?_⟩
    · unfold extractEne extractStep
      rw [if_neg (by omega), hsel]
      exact hh
    · have := computeHist_length _ _ _ _ _ hh
      simpa using this
    · intro k hk
      have := computeHist_getD _ _ _ _ _ hh k (by simpa using hk)
      rw [this, List.length_replicate]
      have h0 : (List.replicate n (0 : K)).getD k 0 = 0 := by
        simp [List.getD, hk]
      rw [h0, zero_add]
      rfl
    · have := computeHist_sum _ _ _ _ _ hh
      rw [this, List.map_map]
      have h1 : ∀ l : List (Emit K), (l.map ((fun p : K × K => p.2) ∘ fun e => (e.energy sq ke, (1 : K)))).sum = (l.length : K) := by
        intro l
        induction l with
        | nil => simp
        | cons a l ih =>
          simp only [List.map_cons, List.sum_cons, ih, List.length_cons]
          simp
          ring
      rw [h1]
      simp
  obtain ⟨hE, e1, e2, e3, e4⟩ := hrun true
  obtain ⟨hT, t1, t2, t3, t4⟩ := hrun false
  have m1 : evs.map (fun e => e.2.2 == true) = evs.map (fun e => e.2.2) := by simp
  have m2 : evs.map (fun e => e.2.2 == false) = evs.map (fun e => !e.2.2) := by simp
  rw [m1] at e3 e4
  rw [m2] at t3 t4
  simp only [if_true, List.append_nil] at e3 e4
  simp only [Bool.false_eq_true, if_false] at t3 t4
  refine ⟨hE, hT, e1, t1, e2, t2, e3, t3, ?_⟩
  rw [e4, t4, ← Nat.cast_add]
  congr 1
  rw [List.length_append]
  have hsplit : ∀ (l : List (Emit K)) (v : List (Impact K × K × Bool)), l.length = v.length →
      (maskSel l (v.map (fun e => e.2.2))).length + (maskSel l (v.map (fun e => !e.2.2))).length = l.length := by
    intro l
    induction l with
    | nil =>
      intro v hv
      have : v = [] := by
        apply List.eq_nil_of_length_eq_zero
        simpa using hv.symm
      subst this
      rfl
    | cons a l ih =>
      intro v hv
      cases v with
      | nil => simp at hv
      | cons e v =>
        have := ih v (by simpa using hv)
        cases h : e.2.2 <;> simp [maskSel, h] <;> omega
  have := hsplit out.replace evs hrl
  omega

/-- the event of charge 30 leaves as three macroparticles, the elastic one as one: the sums are three and one -/
example : ∃ out, seyECLOUD (fun l => .ok l) (fun l => .ok l) (fun _ e nx ny => (e * nx, e * ny, 0))
    (fun _ e nx ny => (e * nx, e * ny, 0)) (12 : ℚ) exEvs = .ok out ∧
    extractEne (fun x => x) (1 / 1000 : ℚ) 5 2 6 out (ecloudTypes 12 exEvs) false = .ok [33 / 16, 15 / 16, 0, 0, 0, 0] ∧
    extractEne (fun x => x) (1 / 1000 : ℚ) 5 2 6 out (ecloudTypes 12 exEvs) true = .ok [331 / 500, 169 / 500, 0, 0, 0, 0] :=
  exists_ok (by decide +kernel)

end dist

/-! ## Side effects -/

theorem chargingProc_other (qe e0 : ℝ) (segs : List Segment) (qs : List ℝ) (hlen : qs.length = segs.length)
    (g : Segment) (hg : segs[1]? = some g) (hc : g.charging = false) (u : ℕ → ℝ) (i : Impact ℝ) (hi : i.seg = 1) (n : ℕ)
    (r : List (ℝ × Bool)) (qs' : List ℝ) (h : chargingProcess qe e0 segs qs u (List.replicate n i) = .ok (r, qs')) : qs' = qs := by
  obtain ⟨-, h2, -, h4⟩ := C27_batch_balance qe e0 segs qs hlen u _ r qs' h
  apply List.ext_getElem?
  intro j
  by_cases hj : j < segs.length
  · have e1 : segs[j]? = some segs[j] := List.getElem?_eq_getElem hj
    have e2 : qs[j]? = some qs[j] := List.getElem?_eq_getElem (by omega)
    have e3 : qs'[j]? = some qs'[j] := List.getElem?_eq_getElem (by omega)
    have := h4 j _ _ _ e1 e2 e3
    rw [e2, e3, this]
    by_cases hj1 : j = 1
    · subst hj1
      rw [e1] at hg
      rw [Option.some.inj hg, hc]
      simp
    · have hf : ((List.replicate n i).zip r).filter (fun t => decide (t.1.seg = (j : ℤ))) = [] := by
        rw [List.filter_eq_nil_iff]
        intro t ht
        have := (List.of_mem_zip (a := t.1) (b := t.2) ht).1
        rw [List.eq_of_mem_replicate this, hi]
        simp only [decide_eq_true_eq]
        omega
      rw [hf]
      simp
  · rw [List.getElem?_eq_none (by omega), List.getElem?_eq_none (by omega)]

/-- **C99**, the part that holds: testing the surface leaves the charge of the segments as it is, if the second segment of
the chamber is not a charging one. Otherwise it does not: `C99_violated`. The models without charging have no state. -/
theorem C99_no_side_effect_partial (qe e0 : ℝ) (segs : List Segment) (qs : List ℝ) (hlen : qs.length = segs.length)
    (g : Segment) (hg : segs[1]? = some g) (hc : g.charging = false) (u : ℕ → ℕ → ℝ) (mass : ℝ) (nRep n : ℕ) (pts : List (ℝ × ℝ))
    (r : List (ℝ × ℝ)) (qs' : List ℝ)
    (h : extractSey (chargingProc qe e0 segs u) (testImpact sqrt qe mass) nRep n pts qs = .ok (r, qs')) : qs' = qs := by
  induction pts generalizing n r with
  | nil =>
    simp only [extractSey, Except.ok.injEq, Prod.mk.injEq] at h
    exact h.2.symm
  | cons p pts ih =>
    obtain ⟨ct, e⟩ := p
    unfold extractSey at h
    split at h
    · cases h
    next q hq =>
      have hqs := chargingProc_other qe e0 segs qs hlen g hg hc (u n) _ rfl nRep q.1 q.2 hq
      rw [hqs] at h
      split at h
      · cases h
      next r' hr' =>
        simp only [Except.ok.injEq, Prod.mk.injEq] at h
        exact ih (n + 1) r'.1 (by rw [hr', ← h.2])

/-- a chamber whose first segment charges is not affected -/
example : ∃ r, extractSey (chargingProc 1 150 [⟨2, 0, 300, true, 1, 20, 1, 1⟩, ⟨2, 0, 300, false, 1, 20, 1, 1⟩] (fun _ _ => 0.5))
    (testImpact sqrt 1 2) 1 0 (sweep [1] [300]) [0, 0] = .ok (r, [0, 0]) := by
  have hy0 : yieldECLOUD ((⟨2, 0, 300, false, 1, 20, 1, 1⟩ : Segment).par 150) 300 1 = (2, 0) := by
    norm_num [yieldECLOUD, yieldTrue, yieldRefl, Segment.par, maskedFrac]
  have hy : yieldCharge 150 (⟨2, 0, 300, false, 1, 20, 1, 1⟩ : Segment) 0 300 1 = (2, 0) := by
    unfold yieldCharge
    rw [hy0]
    norm_num [clampQ]
  have h1 : chargeAt 150 [⟨2, 0, 300, true, 1, 20, 1, 1⟩, ⟨2, 0, 300, false, 1, 20, 1, 1⟩] [0, 0] (testImpact sqrt 1 2 300 1)
      = .ok (2, 0) := by
    unfold chargeAt
    rw [show (testImpact sqrt (1 : ℝ) 2 300 1).seg = ((1 : ℕ) : ℤ) from rfl,
      pyGet_nat _ 1 ((⟨2, 0, 300, false, 1, 20, 1, 1⟩ : Segment), (0 : ℝ)) rfl]
    have e1 : (testImpact sqrt (1 : ℝ) 2 300 1).en = 300 := by norm_num [testImpact]
    have e2 : (testImpact sqrt (1 : ℝ) 2 300 1).cth = 1 := by norm_num [testImpact]
    simp only [e1, e2, hy]
  have hm : [testImpact sqrt (1 : ℝ) 2 300 1].mapM
      (chargeAt 150 [⟨2, 0, 300, true, 1, 20, 1, 1⟩, ⟨2, 0, 300, false, 1, 20, 1, 1⟩] [0, 0]) = .ok [(2, 0)] := by
    rw [List.mapM_cons, h1]
    rfl
  have h2 : ∃ r q, chargingProcess 1 150 [⟨2, 0, 300, true, 1, 20, 1, 1⟩, ⟨2, 0, 300, false, 1, 20, 1, 1⟩] [0, 0] (fun _ => 0.5)
      [testImpact sqrt 1 2 300 1] = .ok (r, q) := by
    unfold chargingProcess
    rw [hm]
    exact ⟨_, _, rfl⟩
  obtain ⟨r, q, h2⟩ := h2
  have h3 : ∃ r' q', extractSey (chargingProc 1 150 [⟨2, 0, 300, true, 1, 20, 1, 1⟩, ⟨2, 0, 300, false, 1, 20, 1, 1⟩] (fun _ _ => 0.5))
      (testImpact sqrt 1 2) 1 0 (sweep [1] [300]) [0, 0] = .ok (r', q') := by
    simp only [sweep, List.flatMap_cons, List.flatMap_nil, List.map_cons, List.map_nil, List.append_nil, extractSey, chargingProc,
      List.replicate_one, h2]
    exact ⟨_, _, rfl⟩
  obtain ⟨r', q', h3⟩ := h3
  have := C99_no_side_effect_partial 1 150 _ [0, 0] rfl _ rfl rfl _ 2 1 0 _ _ _ h3
  exact ⟨r', by rw [h3, this]⟩

/-- a chamber of three segments, the second of which charges -/
def exChargeSegs : List Segment :=
  [⟨2, 0, 300, false, 1, 20, 1, 1⟩, ⟨2, 0, 300, true, 1, 20, 1, 1⟩, ⟨2, 0, 300, false, 1, 20, 1, 1⟩]

/-- **C99** is violated: extracting the yield curves charges the second segment. In this chamber a single test
impact brings its charge to the maximum, and its yield for a later impact of the same energy falls from 2 to less than 1. -/
theorem C99_violated : ∃ r qs', extractSey (chargingProc 1 150 exChargeSegs (fun _ _ => 0.5)) (testImpact sqrt 1 2) 1 0
      (sweep [1] [300]) [0, 0, 0] = .ok (r, qs') ∧
    qs' = [0, 1, 0] ∧
    ∀ g, exChargeSegs[1]? = some g →
      (yieldCharge 150 g 0 300 1).1 = 2 ∧ (yieldCharge 150 g 1 300 1).1 < 1 := by
  have hy0 : yieldECLOUD ((⟨2, 0, 300, true, 1, 20, 1, 1⟩ : Segment).par 150) 300 1 = (2, 0) := by
    norm_num [yieldECLOUD, yieldTrue, yieldRefl, Segment.par, maskedFrac]
  have hy : yieldCharge 150 (⟨2, 0, 300, true, 1, 20, 1, 1⟩ : Segment) 0 300 1 = (2, 0) := by
    unfold yieldCharge
    rw [hy0]
    norm_num [clampQ]
  refine ⟨[(0, 2)], [0, 1, 0], ?_, rfl, ?_⟩
  · have h1 : chargeAt 150 exChargeSegs [0, 0, 0] (testImpact sqrt 1 2 300 1) = .ok (2, 0) := by
      unfold chargeAt
      rw [show (testImpact sqrt (1 : ℝ) 2 300 1).seg = ((1 : ℕ) : ℤ) from rfl,
        pyGet_nat _ 1 ((⟨2, 0, 300, true, 1, 20, 1, 1⟩ : Segment), (0 : ℝ)) rfl]
      have e1 : (testImpact sqrt (1 : ℝ) 2 300 1).en = 300 := by norm_num [testImpact]
      have e2 : (testImpact sqrt (1 : ℝ) 2 300 1).cth = 1 := by norm_num [testImpact]
      simp only [e1, e2, hy]
    have h2 : chargingProcess 1 150 exChargeSegs [0, 0, 0] (fun _ => 0.5) [testImpact sqrt 1 2 300 1]
        = .ok ([(2, false)], [0, 1, 0]) := by
      unfold chargingProcess
      have hm : [testImpact sqrt (1 : ℝ) 2 300 1].mapM (chargeAt 150 exChargeSegs [0, 0, 0]) = .ok [(2, 0)] := by
        rw [List.mapM_cons, h1]
        rfl
      rw [hm]
      norm_num [seyProcess, exChargeSegs, testImpact, List.mapIdx_cons]
    simp only [sweep, List.flatMap_cons, List.flatMap_nil, List.map_cons, List.map_nil, List.append_nil, extractSey, chargingProc,
      List.replicate_one, h2]
    norm_num [curvePoint, testImpact]
  · intro g hg
    have : g = ⟨2, 0, 300, true, 1, 20, 1, 1⟩ := by
      have h : (exChargeSegs[1]? : Option Segment) = some ⟨2, 0, 300, true, 1, 20, 1, 1⟩ := rfl
      rw [h] at hg
      exact (Option.some.inj hg).symm
    subst this
    refine ⟨by rw [hy], ?_⟩
    have := (C27_effective_yield 150 (⟨2, 0, 300, true, 1, 20, 1, 1⟩ : Segment) 1 300 1 one_pos).2.2.2.2 rfl le_rfl
    rw [this]
    have := exp_pos (-(300 : ℝ) / 20)
    linarith

end PyECLOUD
