import Verif.Spec.CrossMean
import Verif.Props.EmitMean
import Verif.Props.CrossIon

/-! # Property C189: on average the products of the cross ionisation appear where and as often as projectiles ionise -/

namespace PyECLOUD

open MeasureTheory ProbabilityTheory

/-- rounding all requests of a list: mean and deviation of a weighted sum -/
theorem rounded_sum (n : ℕ) (q w : Fin n → ℝ) (ref : ℝ) (hr : 0 < ref) :
    (∫ ω, ∑ i, w i * (ref * (roundedCount (q i / ref) (ω i) : ℝ)) ∂(uniformDraws n) = ∑ i, w i * q i) ∧
    ∀ ε, 0 < ε → uniformDraws n {ω | ε ≤ |∑ i, w i * (ref * (roundedCount (q i / ref) (ω i) : ℝ)) - ∑ i, w i * q i|} ≤
      ENNReal.ofReal ((∑ i, (w i * ref) ^ 2) / (4 * ε ^ 2)) := by
  have hprob : IsProbabilityMeasure (uniformDraws n) := by
    have := unitDraw_prob
    unfold uniformDraws; infer_instance
  have hpt : ∀ ω : Fin n → ℝ, ∑ i, w i * (ref * (roundedCount (q i / ref) (ω i) : ℝ)) =
      (∑ i, w i * ref * (⌊q i / ref⌋ : ℝ)) + ∑ i, below (w i * ref) (Int.fract (q i / ref)) (ω i) := by
    intro ω
    rw [← Finset.sum_add_distrib]
    refine Finset.sum_congr rfl (fun i _ => ?_)
    rw [below_apply]
    unfold roundedCount
    split
    · push_cast; ring
    · simp [mul_assoc]
  have hsum : ∑ i, w i * q i = (∑ i, w i * ref * (⌊q i / ref⌋ : ℝ)) + ∑ i, w i * ref * Int.fract (q i / ref) := by
    rw [← Finset.sum_add_distrib]
    refine Finset.sum_congr rfl (fun i _ => ?_)
    rw [← mul_add, Int.floor_add_fract]
    field_simp
  obtain ⟨m1, m2⟩ := below_sum (fun i => w i * ref) (fun i => Int.fract (q i / ref)) (fun i => Int.fract_nonneg _)
    (fun i => (Int.fract_lt_one _).le)
  have hint : Integrable (fun ω : Fin n → ℝ => ∑ i, below (w i * ref) (Int.fract (q i / ref)) (ω i)) (uniformDraws n) := by
    have := unitDraw_prob
    refine integrable_finsetSum _ (fun i _ => ?_)
    exact (measurePreserving_eval (fun _ : Fin n => volume.restrict (Set.Icc (0 : ℝ) 1)) i).integrable_comp_of_integrable
      ((below_memLp (w i * ref) (Int.fract (q i / ref)) 1).integrable le_rfl)
  refine ⟨?_, fun ε hε => ?_⟩
  · simp_rw [hpt]
    rw [integral_add (integrable_const _) hint, m1, integral_const, hsum]
    simp only [probReal_univ, one_smul]
  · have e : {ω : Fin n → ℝ | ε ≤ |∑ i, w i * (ref * (roundedCount (q i / ref) (ω i) : ℝ)) - ∑ i, w i * q i|} =
        {ω | ε ≤ |∑ i, below (w i * ref) (Int.fract (q i / ref)) (ω i) - ∑ i, w i * ref * Int.fract (q i / ref)|} := by
      ext ω
      simp only [Set.mem_setOf_eq]
      rw [hpt ω, hsum, add_sub_add_left_eq_sub]
    rw [e]
    exact m2 ε hε

theorem placed_batch (φ : ℝ → ℝ → ℝ) (proj : List (Particle ℝ)) (counts : List ℤ) (ref : ℝ) (m : NewMPs ℝ)
    (h0 : ∀ c ∈ counts, 0 ≤ c) (hl : counts.length = proj.length) (hb : IsBatch proj counts ref m) :
    placedCharge φ m = (List.zipWith (fun (p : Particle ℝ) (c : ℤ) => φ (p .x) (p .y) * (ref * (c : ℝ))) proj counts).sum := by
  have hlen : (perProjectile proj counts).length = m.n.toNat := by
    rw [hb.n_eq]
    clear hb
    induction counts generalizing proj with
    | nil => simp [perProjectile]
    | cons c l ih =>
      cases proj with
      | nil => simp at hl
      | cons p proj =>
        have := ih proj (fun c hc => h0 c (by simp [hc])) (by simpa using hl)
        have hc := h0 c (by simp)
        have hs : 0 ≤ l.sum := List.sum_nonneg (fun c hc => h0 c (by simp [hc]))
        simp only [perProjectile, List.zip_cons_cons, List.flatMap_cons, List.length_append, List.length_replicate, List.sum_cons] at this ⊢
        omega
  have hz : placedCharge φ m = ((perProjectile proj counts).map (fun p => φ (p .x) (p .y) * ref)).sum := by
    unfold placedCharge
    rw [hb.nel, hb.x, hb.y, ← hlen]
    generalize perProjectile proj counts = l
    induction l with
    | nil => rfl
    | cons p l ih => simp only [List.length_cons, List.replicate_succ, List.map_cons, List.zipWith_cons_cons, List.sum_cons, ih, mul_comm ref]
  rw [hz]
  clear hz hlen hb
  induction counts generalizing proj with
  | nil => simp [perProjectile]
  | cons c l ih =>
    cases proj with
    | nil => simp at hl
    | cons p proj =>
      have := ih proj (fun c hc => h0 c (by simp [hc])) (by simpa using hl)
      have hc : ((c.toNat : ℕ) : ℝ) = (c : ℝ) := by rw [← Int.cast_natCast, Int.toNat_of_nonneg (h0 c (by simp))]
      simp only [perProjectile, List.zip_cons_cons, List.flatMap_cons, List.map_append, List.sum_append, List.map_replicate,
        List.sum_replicate, nsmul_eq_mul, List.zipWith_cons_cons, List.sum_cons] at this ⊢
      rw [this, hc]
      ring

/-- the general statement for one product -/
theorem product_mean (φ : ℝ → ℝ → ℝ) (proj : List (Particle ℝ)) (per : List ℝ) (hl : per.length = proj.length) (ref : ℝ) (hr : 0 < ref)
    (hp : ∀ q ∈ per, 0 ≤ q) (v0 : ℝ) (rv : Fld → ℕ → ℝ) :
    (∫ ω, placedCharge φ (xNew (xCounts per ref (drawFn ω)) proj ref v0 rv) ∂(uniformDraws proj.length) =
      (List.zipWith (fun (p : Particle ℝ) q => φ (p .x) (p .y) * q) proj per).sum) ∧
    ∀ ε, 0 < ε → uniformDraws proj.length {ω | ε ≤ |placedCharge φ (xNew (xCounts per ref (drawFn ω)) proj ref v0 rv) -
        (List.zipWith (fun (p : Particle ℝ) q => φ (p .x) (p .y) * q) proj per).sum|} ≤
      ENNReal.ofReal ((proj.map (fun p => (φ (p .x) (p .y) * ref) ^ 2)).sum / (4 * ε ^ 2)) := by
  obtain ⟨m1, m2⟩ := rounded_sum proj.length (fun i => per[i]'(by rw [hl]; exact i.2)) (fun i => φ (proj[i] .x) (proj[i] .y)) ref hr
  have e1 : ∀ ω : Fin proj.length → ℝ, placedCharge φ (xNew (xCounts per ref (drawFn ω)) proj ref v0 rv) =
      ∑ i : Fin proj.length, φ (proj[i] .x) (proj[i] .y) *
        (ref * (roundedCount (per[i]'(by rw [hl]; exact i.2) / ref) (ω i) : ℝ)) := by
    intro ω
    rw [placed_batch φ proj _ ref _ (xCounts_nonneg per ref _ hr.le hp) (by rw [xCounts_length, hl])
      (xNew_batch _ _ _ _ _ (by rw [xCounts_length, hl]) (xCounts_nonneg per ref _ hr.le hp)), ← List.sum_ofFn]
    congr 1
    apply List.ext_getElem
    · simp [xCounts_length, hl]
    · intro i h1 h2
      have hi : i < proj.length := by simpa using h2
      simp only [List.getElem_zipWith, List.getElem_ofFn, xCounts, List.getElem_mapIdx, stochRound_eq]
      have := drawFn_fin ω ⟨i, hi⟩
      simp only at this
      rw [this]
      rfl
  have e2 : (List.zipWith (fun (p : Particle ℝ) q => φ (p .x) (p .y) * q) proj per).sum =
      ∑ i : Fin proj.length, φ (proj[i] .x) (proj[i] .y) * per[i]'(by rw [hl]; exact i.2) := by
    rw [← List.sum_ofFn]
    congr 1
    apply List.ext_getElem
    · simp [hl]
    · intro i h1 h2
      simp
  have e3 : (proj.map (fun p => (φ (p .x) (p .y) * ref) ^ 2)).sum = ∑ i : Fin proj.length, (φ (proj[i] .x) (proj[i] .y) * ref) ^ 2 := by
    rw [← List.sum_ofFn]
    congr 1
    apply List.ext_getElem <;> simp
  simp_rw [e1, e2, e3]
  exact ⟨m1, m2⟩

theorem prodLoop_at (sq : ℝ → ℝ) (qe eInit : ℝ) (cs : List (XCloud ℝ)) (dn : List ℝ) (proj : List (Particle ℝ))
    (d : XDraws ℝ) (shared : Option (List ℤ × ℝ)) (ps : List ℕ) (k : ℕ) (info info' : ℕ → NewMPs ℝ)
    (h : prodLoop sq qe eInit cs dn proj d shared ps k info = .ok info') (hnd : ps.Nodup) (j nm : ℕ) (hj : ps[j]? = some nm) :
    ∃ c, cloudGet cs nm = .ok c ∧
      info' nm = xNew (shared.getD (xCounts dn c.mps.ref (d.u (k + j)), c.mps.ref)).1 proj
        (shared.getD (xCounts dn c.mps.ref (d.u (k + j)), c.mps.ref)).2 (sq (2 * (eInit / 3) * qe / c.mass)) (d.rv (k + j)) := by
  induction ps generalizing k info j with
  | nil => simp at hj
  | cons a ps ih =>
    unfold prodLoop at h
    split at h
    · cases h
    · next c hc =>
      dsimp only at h
      obtain ⟨n1, n2⟩ := List.nodup_cons.1 hnd
      cases j with
      | zero =>
        simp only [List.getElem?_cons_zero, Option.some.injEq] at hj
        subst hj
        rw [(prodLoop_spec _ _ _ _ _ _ _ _ _ _ _ _ h a).1 n1, Function.update_self]
        exact ⟨c, hc, rfl⟩
      | succ j =>
        rw [List.getElem?_cons_succ] at hj
        have := ih (k + 1) _ h n2 j hj
        rw [show k + 1 + j = k + (j + 1) by omega] at this
        exact this

theorem cloudGet_named (cs : List (XCloud ℝ)) (nm : ℕ) (c : XCloud ℝ) (hc : cloudGet cs nm = .ok c) : c ∈ cs ∧ c.name = nm := by
  unfold cloudGet at hc
  split at hc
  · next c' hf =>
    cases hc
    exact ⟨List.mem_reverse.1 (List.mem_of_find?_eq_some hf), by simpa using List.find?_some hf⟩
  · cases hc

/-- **C189**: one call of an ionisation process, each product with its own random numbers. Whatever the random numbers of the other
products and the velocities are, the charge of the new macroparticles of a product is on average, in every region and for every weight
`φ` of the place, that of the ionisations: cross section times target density times path times number of projectile particles at the
place of each projectile. The deviation is bounded by the reference size. -/
theorem C189_separate (pr : Proc ℝ) (sq lg : ℝ → ℝ) (qe dt : ℝ) (cs : List (XCloud ℝ)) (mass : ℝ) (proj : List (Particle ℝ))
    (v : List ℝ) (flag : Bool) (d : XDraws ℝ) (hv : v.length = proj.length) (he : pr.equally = false) (hnd : pr.products.Nodup)
    (k nm : ℕ) (hk : pr.products[k]? = some nm)
    (hs : ∀ e s, pr.table.getSigma lg e = .ok s → 0 ≤ s) (hd : 0 ≤ pr.dens) (hdt : 0 ≤ dt) (hw : ∀ w ∈ v, 0 ≤ w)
    (hn : ∀ p ∈ proj, 0 ≤ p .nel) (hr : ∀ c ∈ cs, 0 < c.mps.ref) (out : (Fin proj.length → ℝ) → Proc ℝ × (ℕ → NewMPs ℝ) × ℝ)
    (h : ∀ ω, pr.generate sq lg qe dt cs mass proj v flag { d with u := Function.update d.u k (drawFn ω) } = .ok (out ω)) :
    ∃ (per : List ℝ) (c : XCloud ℝ), c ∈ cs ∧ c.name = nm ∧ per.length = proj.length ∧
      (∀ (i : ℕ) (q : ℝ), per[i]? = some q → ∃ (p : Particle ℝ) (w s : ℝ), proj[i]? = some p ∧ v[i]? = some w ∧
        pr.table.getSigma lg (1 / 2 * mass / qe * w * w) = .ok s ∧ q = ionisations s pr.dens w dt (p .nel)) ∧
      (∀ ω, (out ω).2.2 = per.sum) ∧
      ∀ φ : ℝ → ℝ → ℝ,
        (∫ ω, placedCharge φ ((out ω).2.1 nm) ∂(uniformDraws proj.length) =
          (List.zipWith (fun (p : Particle ℝ) q => φ (p .x) (p .y) * q) proj per).sum) ∧
        ∀ ε, 0 < ε → uniformDraws proj.length {ω | ε ≤ |placedCharge φ ((out ω).2.1 nm) -
            (List.zipWith (fun (p : Particle ℝ) q => φ (p .x) (p .y) * q) proj per).sum|} ≤
          ENNReal.ofReal ((proj.map (fun p => (φ (p .x) (p .y) * c.mps.ref) ^ 2)).sum / (4 * ε ^ 2)) := by
  cases hsig : pr.sigmas lg mass qe v with
  | error e =>
    have := h (fun _ => 0)
    unfold Proc.generate at this
    rw [hsig] at this
    cases this
  | ok sig =>
    obtain ⟨hl, hper⟩ := dnPer_isPer pr lg mass qe dt proj v sig hv hsig
    have hnn : ∀ q ∈ dnPer sig pr.dens dt v (proj.map (fun p => p .nel)), 0 ≤ q := by
      intro q hq
      obtain ⟨i, hiq⟩ := List.getElem?_of_mem hq
      obtain ⟨p, w, s, h1, h2, h3, rfl⟩ := hper i q hiq
      have a1 := hs _ _ h3
      have a2 := hw w (List.mem_of_getElem? h2)
      have a3 := hn p (List.mem_of_getElem? h1)
      unfold ionisations
      positivity
    have hout : ∀ ω, (out ω).2.2 = (dnPer sig pr.dens dt v (proj.map (fun p => p .nel))).sum ∧
        ∃ c, cloudGet cs nm = .ok c ∧ (out ω).2.1 nm = xNew (xCounts (dnPer sig pr.dens dt v (proj.map (fun p => p .nel))) c.mps.ref
          (drawFn ω)) proj c.mps.ref (sq (2 * (pr.eInit / 3) * qe / c.mass)) (d.rv k) := by
      intro ω
      have h' := h ω
      unfold Proc.generate at h'
      rw [hsig] at h'
      dsimp only at h'
      rw [he] at h'
      simp only [Bool.false_eq_true, if_false] at h'
      split at h'
      · cases h'
      · next info hi =>
        have e := (Except.ok.inj h').symm
        rw [e]
        obtain ⟨c, hc, hx⟩ := prodLoop_at _ _ _ _ _ _ _ _ _ _ _ _ hi hnd k nm hk
        refine ⟨rfl, c, hc, ?_⟩
        simp only [Option.getD_none, Nat.zero_add, Function.update_self] at hx
        exact hx
    obtain ⟨-, c, hc, -⟩ := hout (fun _ => 0)
    obtain ⟨m1, m2⟩ := cloudGet_named cs nm c hc
    refine ⟨_, c, m1, m2, hl, hper, fun ω => (hout ω).1, fun φ => ?_⟩
    have hx : ∀ ω, (out ω).2.1 nm = xNew (xCounts (dnPer sig pr.dens dt v (proj.map (fun p => p .nel))) c.mps.ref
        (drawFn ω)) proj c.mps.ref (sq (2 * (pr.eInit / 3) * qe / c.mass)) (d.rv k) := by
      intro ω
      obtain ⟨-, c', hc', e⟩ := hout ω
      rw [hc] at hc'
      cases hc'
      exact e
    simp_rw [hx]
    exact product_mean φ proj _ hl c.mps.ref (hr c m1) hnn _ _

/-- **C189** with `generate_equally`: the same for all products, with the mean of their reference sizes. -/
theorem C189_equally (pr : Proc ℝ) (sq lg : ℝ → ℝ) (qe dt : ℝ) (cs : List (XCloud ℝ)) (mass : ℝ) (proj : List (Particle ℝ))
    (v : List ℝ) (flag : Bool) (d : XDraws ℝ) (hv : v.length = proj.length) (he : pr.equally = true) (nm : ℕ) (hk : nm ∈ pr.products)
    (hs : ∀ e s, pr.table.getSigma lg e = .ok s → 0 ≤ s) (hd : 0 ≤ pr.dens) (hdt : 0 ≤ dt) (hw : ∀ w ∈ v, 0 ≤ w)
    (hn : ∀ p ∈ proj, 0 ≤ p .nel) (hr : ∀ c ∈ cs, 0 < c.mps.ref) (out : (Fin proj.length → ℝ) → Proc ℝ × (ℕ → NewMPs ℝ) × ℝ)
    (h : ∀ ω, pr.generate sq lg qe dt cs mass proj v flag { d with u := Function.update d.u 0 (drawFn ω) } = .ok (out ω)) :
    ∃ (per refs : List ℝ), List.Forall₂ (fun nm r => ∃ c ∈ cs, c.name = nm ∧ r = c.mps.ref) pr.products refs ∧
      per.length = proj.length ∧
      (∀ (i : ℕ) (q : ℝ), per[i]? = some q → ∃ (p : Particle ℝ) (w s : ℝ), proj[i]? = some p ∧ v[i]? = some w ∧
        pr.table.getSigma lg (1 / 2 * mass / qe * w * w) = .ok s ∧ q = ionisations s pr.dens w dt (p .nel)) ∧
      (∀ ω, (out ω).2.2 = per.sum) ∧
      ∀ φ : ℝ → ℝ → ℝ,
        (∫ ω, placedCharge φ ((out ω).2.1 nm) ∂(uniformDraws proj.length) =
          (List.zipWith (fun (p : Particle ℝ) q => φ (p .x) (p .y) * q) proj per).sum) ∧
        ∀ ε, 0 < ε → uniformDraws proj.length {ω | ε ≤ |placedCharge φ ((out ω).2.1 nm) -
            (List.zipWith (fun (p : Particle ℝ) q => φ (p .x) (p .y) * q) proj per).sum|} ≤
          ENNReal.ofReal ((proj.map (fun p => (φ (p .x) (p .y) * (refs.sum / (pr.products.length : ℝ))) ^ 2)).sum / (4 * ε ^ 2)) := by
  cases hsig : pr.sigmas lg mass qe v with
  | error e =>
    have := h (fun _ => 0)
    unfold Proc.generate at this
    rw [hsig] at this
    cases this
  | ok sig =>
    cases hmr : meanRef cs pr.products pr.products with
    | error e =>
      have := h (fun _ => 0)
      unfold Proc.generate at this
      rw [hsig] at this
      dsimp only at this
      rw [he, if_pos rfl, hmr] at this
      cases this
    | ok r =>
    obtain ⟨hl, hper⟩ := dnPer_isPer pr lg mass qe dt proj v sig hv hsig
    have hnn : ∀ q ∈ dnPer sig pr.dens dt v (proj.map (fun p => p .nel)), 0 ≤ q := by
      intro q hq
      obtain ⟨i, hiq⟩ := List.getElem?_of_mem hq
      obtain ⟨p, w, s, h1, h2, h3, rfl⟩ := hper i q hiq
      have a1 := hs _ _ h3
      have a2 := hw w (List.mem_of_getElem? h2)
      have a3 := hn p (List.mem_of_getElem? h1)
      unfold ionisations
      positivity
    have hout : ∀ ω, (out ω).2.2 = (dnPer sig pr.dens dt v (proj.map (fun p => p .nel))).sum ∧
        ∃ (v0 : ℝ) (rv : Fld → ℕ → ℝ), (out ω).2.1 nm = xNew (xCounts (dnPer sig pr.dens dt v (proj.map (fun p => p .nel))) r
          (drawFn ω)) proj r v0 rv := by
      intro ω
      have h' := h ω
      unfold Proc.generate at h'
      rw [hsig] at h'
      dsimp only at h'
      rw [he, if_pos rfl, hmr] at h'
      dsimp only at h'
      split at h'
      · cases h'
      · next info hi =>
        have e := (Except.ok.inj h').symm
        rw [e]
        obtain ⟨k, c, -, hx⟩ := (prodLoop_spec _ _ _ _ _ _ _ _ _ _ _ _ hi nm).2 hk
        simp only [Option.getD_some, Function.update_self] at hx
        exact ⟨rfl, _, _, hx⟩
    obtain ⟨refs, hf, hrefs⟩ := meanRef_eq _ _ _ _ hmr
    have hf' : List.Forall₂ (fun nm r => ∃ c ∈ cs, c.name = nm ∧ r = c.mps.ref) pr.products refs := by
      refine hf.imp ?_
      rintro nm r ⟨c, hc, rfl⟩
      exact ⟨c, (cloudGet_named cs nm c hc).1, (cloudGet_named cs nm c hc).2, rfl⟩
    have hpos : 0 < refs.sum := by
      refine List.sum_pos _ (fun x hx => ?_) (fun e => ?_)
      · obtain ⟨i, hir, rfl⟩ := List.getElem_of_mem hx
        obtain ⟨c, hcm, -, e⟩ := (List.forall₂_iff_get.mp hf').2 i (by rw [hf'.length_eq]; exact hir) hir
        simp only [List.get_eq_getElem] at e
        rw [e]
        exact hr c hcm
      · have := hf'.length_eq
        rw [e, List.length_nil] at this
        rw [List.length_eq_zero_iff.1 this] at hk
        cases hk
    have hr0 : 0 < refs.sum / (pr.products.length : ℝ) :=
      div_pos hpos (by exact_mod_cast List.length_pos_iff.2 (List.ne_nil_of_mem hk))
    rw [← hrefs] at hr0
    refine ⟨_, refs, hf', hl, hper, fun ω => (hout ω).1, fun φ => ?_⟩
    rw [← hrefs]
    have hx : ∀ ω, placedCharge φ ((out ω).2.1 nm) = placedCharge φ (xNew (xCounts (dnPer sig pr.dens dt v (proj.map (fun p => p .nel))) r
        (drawFn ω)) proj r 0 (fun _ _ => 0)) := by
      intro ω
      obtain ⟨-, v0, rv, e⟩ := hout ω
      rw [e]
      unfold placedCharge xNew
      dsimp only
      split <;> rfl
    simp_rw [hx]
    exact product_mean φ proj _ hl r hr0 hnn _ _

/-- two product clouds with reference sizes 3 and 5 -/
def meanClouds : List (XCloud ℝ) :=
  [⟨1, 1, ⟨fun _ => [0, 0, 0, 0], 1, 3, 6, 1, 3, 2, 1, false⟩⟩, ⟨2, 1, ⟨fun _ => [0, 0, 0, 0], 0, 5, 10, 1, 5, 2, 1, false⟩⟩]

/-- one projectile of four particles, cross section 2, density 10, speed 20, step 1/1000: on average 8/5 charges of the second product
appear to the right of `x = 0`, whatever the other random numbers are -/
example (d : XDraws ℝ) : ∃ (T : XTable ℝ) (out : (Fin 1 → ℝ) → Proc ℝ × (ℕ → NewMPs ℝ) × ℝ),
    (∀ ω, (⟨10, 100, 10, 3, false, [1, 2], T⟩ : Proc ℝ).generate Real.sqrt Real.log 1 (1 / 1000) meanClouds 1
      [fun f => if f = .nel then 4 else 1] [20] true { d with u := Function.update d.u 1 (drawFn ω) } = .ok (out ω)) ∧
    ∫ ω, placedCharge (fun x _ => if 0 < x then 1 else 0) ((out ω).2.1 2) ∂(uniformDraws 1) = 8 / 5 := by
  obtain ⟨T, hT, h⟩ := C68_linear_table Real.log (0 : ℝ) 400 0 (400 * 10 ^ 8) (by norm_num) (by norm_num) [20000, 20000] rfl
  have hnn : ∀ e s, T.getSigma Real.log e = .ok s → 0 ≤ s := by
    intro e s hs
    obtain ⟨s', h1, h2⟩ := C68_nonneg Real.log (0 : ℝ) 400 0 (400 * 10 ^ 8) (by norm_num) (by norm_num) [20000, 20000] rfl
      (by simp) T hT e
    rw [hs] at h1
    cases h1
    exact h2
  have hsig : T.getSigma Real.log (1 / 2 * 1 / 1 * 20 * 20) = .ok 2 := by
    obtain ⟨i, r, a, b, -, -, -, h1, h2, h3⟩ := (h (1 / 2 * 1 / 1 * 20 * 20)).2 (by norm_num) (by norm_num)
    have ha : a = 20000 := by simpa using List.mem_of_getElem? h1
    have hb : b = 20000 := by
      rcases h2 with h2 | ⟨-, -, h2⟩
      · simpa using List.mem_of_getElem? h2
      · rw [h2, ha]
    rw [h3, ha, hb]
    unfold lerp
    norm_num
    ring
  have hex : ∀ ω : Fin 1 → ℝ, ∃ o, (⟨10, 100, 10, 3, false, [1, 2], T⟩ : Proc ℝ).generate Real.sqrt Real.log 1 (1 / 1000) meanClouds 1
      [fun f => if f = .nel then 4 else 1] [20] true { d with u := Function.update d.u 1 (drawFn ω) } = .ok o := by
    intro ω
    simp only [Proc.generate, Proc.sigmas, List.mapM_cons, List.mapM_nil, hsig, bind, Except.bind, pure, Except.pure,
      Bool.false_eq_true, if_false, prodLoop, cloudGet, meanClouds, List.reverse_cons, List.reverse_nil, List.nil_append,
      List.cons_append, List.find?]
    exact ⟨_, rfl⟩
  choose out hout using hex
  refine ⟨T, out, hout, ?_⟩
  obtain ⟨per, c, -, -, hl, hper, -, hm⟩ := C189_separate ⟨10, 100, 10, 3, false, [1, 2], T⟩ Real.sqrt Real.log 1 (1 / 1000) meanClouds 1
    [fun f => if f = .nel then 4 else 1] [20] true d rfl rfl (by simp) 1 2 rfl hnn (by norm_num) (by norm_num) (by simp)
    (by simp) (by simp [meanClouds]) out hout
  obtain ⟨q, rfl⟩ := List.length_eq_one_iff.1 hl
  obtain ⟨p, w, s, h1, h2, h3, h4⟩ := hper 0 q rfl
  simp only [List.getElem?_cons_zero, Option.some.injEq] at h1 h2
  subst h1 h2
  rw [hsig] at h3
  cases h3
  refine (hm _).1.trans ?_
  rw [h4]
  simp [ionisations]
  norm_num

end PyECLOUD
