import Verif.Lemmas.Photo
import Verif.Props.Sources
import Verif.Props.Geometry
import Mathlib.MeasureTheory.Measure.Lebesgue.Basic

/-!
# Where photoelectrons are emitted (C100)
-/

set_option linter.unusedSectionVars false

namespace PyECLOUD

section

variable {K : Type} [Field K] [LinearOrder K] [IsStrictOrderedRing K]

theorem cdfLo_eq (cdf : List K) (k : ℕ) : cdfLo cdf k = (0 :: cdf).getD k 0 := by
  unfold cdfLo
  cases k <;> simp

/-- An accepted distribution that starts at or above 0 is a list of increasing edges. -/
theorem loadPhem_mono {sq : K → K} {vs : List (K × K)} {cdf : List K} {segs : List (PhSeg K)} (h : loadPhem sq vs cdf = .ok segs)
    (h0 : 0 ≤ cdf.headD 0) : ∀ q ∈ pairs (0 :: cdf), q.1 ≤ q.2 := by
  obtain ⟨-, -, h3, -⟩ := loadPhem_ok h
  cases cdf with
  | nil => simp [pairs]
  | cons c l =>
    intro q hq
    simp only [pairs, List.mem_cons] at hq
    rcases hq with rfl | hq
    · simpa using h0
    · exact h3 q hq

/-- **C100**, numbers per segment: with an accepted `phem_cdf` whose first entry is not negative, every random number in [0, 1)
is counted in exactly one segment, that whose interval contains it. -/
theorem C100_counts (sq : K → K) (vs : List (K × K)) (cdf : List K) (segs : List (PhSeg K)) (hl : loadPhem sq vs cdf = .ok segs)
    (h0 : 0 ≤ cdf.headD 0) (draws : List K) (hd : ∀ r ∈ draws, 0 ≤ r ∧ r < 1) :
    ∃ c, segHistogram cdf draws = .ok c ∧ c.length = cdf.length ∧ c.sum = draws.length ∧
      ∀ k < cdf.length, c[k]? = some (draws.countP (fun r => decide (cdfLo cdf k ≤ r ∧ r < cdfHi cdf k))) := by
  obtain ⟨h1, h2, -⟩ := loadPhem_ok hl
  have hm := loadPhem_mono hl h0
  have hlast : (0 :: cdf).getLastD 0 = 1 := by
    rw [← h2]
    cases cdf with
    | nil => simp at h1
    | cons c l => simp
  refine ⟨_, npHistogram_eq draws 0 cdf hm (fun r hr => by rw [hlast]; exact (hd r hr).2), ?_, ?_, ?_⟩
  · rw [List.length_map, pairs_cons_length]
  · rw [histogram_sum draws cdf 0 hm, hlast, List.countP_eq_length]
    intro r hr
    simpa using hd r hr
  · intro k hk
    rw [List.getElem?_map, pairs_cons_getElem? cdf 0 k hk, cdfLo_eq]
    rfl

/-- The bin of a random number is the segment whose interval contains it. -/
theorem bin_iff (sq : K → K) (vs : List (K × K)) (cdf : List K) (segs : List (PhSeg K)) (hl : loadPhem sq vs cdf = .ok segs)
    (h0 : 0 ≤ cdf.headD 0) (r : K) (hr0 : 0 ≤ r) (hr1 : r < 1) (k : ℕ) :
    cdfBin cdf r = k ↔ cdfLo cdf k ≤ r ∧ r < cdfHi cdf k := by
  obtain ⟨h1, h2, -⟩ := loadPhem_ok hl
  have hm := loadPhem_mono hl h0
  cases cdf with
  | nil => simp at h1
  | cons c l =>
    rw [cdfBin_iff l 0 c r hm hr0 (by rw [h2]; exact hr1) k, cdfLo_eq, cdfHi]
    constructor
    · exact fun h => h.2
    · intro h
      refine ⟨?_, h⟩
      by_contra hk
      have : (c :: l).getD k 0 = 0 := by
        rw [List.getD_eq_getElem?_getD, List.getElem?_eq_none (not_lt.1 hk)]
        rfl
      rw [this] at h
      exact absurd hr0 (not_le.2 h.2)

/-- **C100**: the loop over the segments visits the photoelectrons segment by segment, as the histogram says. -/
theorem C100_order (sq : K → K) (vs : List (K × K)) (cdf : List K) (segs : List (PhSeg K)) (hl : loadPhem sq vs cdf = .ok segs)
    (h0 : 0 ≤ cdf.headD 0) (draws : List K) (hd : ∀ r ∈ draws, 0 ≤ r ∧ r < 1) (c : List ℕ) (hc : segHistogram cdf draws = .ok c) :
    expandCounts c = (draws.map (cdfBin cdf)).insertionSort (· ≤ ·) := by
  obtain ⟨c', h1, h2, -, h4⟩ := C100_counts sq vs cdf segs hl h0 draws hd
  obtain rfl : c = c' := by
    rw [hc] at h1
    exact Except.ok.inj h1
  have hcount : ∀ k, (expandCounts c).count k = (draws.map (cdfBin cdf)).count k := by
    intro k
    rw [expandCounts_count, List.count, List.countP_map]
    have e : draws.countP ((fun x => x == k) ∘ cdfBin cdf) = draws.countP (fun r => decide (cdfLo cdf k ≤ r ∧ r < cdfHi cdf k)) := by
      apply List.countP_congr
      intro r hr
      simp only [Function.comp_apply, beq_iff_eq, decide_eq_true_eq]
      exact bin_iff sq vs cdf segs hl h0 r (hd r hr).1 (hd r hr).2 k
    rw [e]
    by_cases hk : k < cdf.length
    · rw [List.getD_eq_getElem?_getD, h4 k hk]
      rfl
    · rw [List.getD_eq_getElem?_getD, List.getElem?_eq_none (by omega)]
      symm
      rw [Option.getD_none, List.countP_eq_zero]
      intro r hr
      have : cdfHi cdf k = 0 := by
        rw [cdfHi, List.getD_eq_getElem?_getD, List.getElem?_eq_none (by omega)]
        rfl
      simp only [this, decide_eq_true_eq, not_and, not_lt]
      exact fun _ => (hd r hr).1
  have hp : (expandCounts c).Perm ((draws.map (cdfBin cdf)).insertionSort (· ≤ ·)) :=
    (List.perm_iff_count.2 hcount).trans (List.perm_insertionSort _ _).symm
  exact hp.eq_of_pairwise (fun a b _ _ h1 h2 => le_antisymm h1 h2) (expandCounts_sorted c) (List.pairwise_insertionSort _ _)

variable [FloorRing K]

/-- **C100**, emission per segment: every photoelectron starts at a point of its segment, moved by 1e-14 along the inward normal,
and its velocity is drawn around this normal; the number on segment `k` is the number of random numbers in its interval. -/
theorem C100_per_segment (sq : K → K) (vs : List (K × K)) (hsq : EdgeRoots sq vs) (cdf : List K) (segs : List (PhSeg K))
    (hl : loadPhem sq vs cdf = .ok segs) (h0 : 0 ≤ cdf.headD 0) (outside : K → K → Bool) (vel : ℕ → PhSeg K → K × K × K)
    (kc : K) (mean : Option K) (lam dt u : K) (seg r0 : ℕ → K) (rounds : List (ℕ → K))
    (hseg : ∀ i, 0 ≤ seg i ∧ seg i < 1) (hr0 : ∀ i, 0 ≤ r0 i ∧ r0 i < 1) (hrr : ∀ r ∈ rounds, ∀ i, 0 ≤ r i ∧ r i < 1)
    (s s' : MPs K) (h : s.WF) (hroom : s.nmp < s.cap) (hr : 0 < s.ref) (hq : 0 ≤ kc * (mean.getD lam) * dt) (hu : 0 ≤ u)
    (hok : photoSegGenerate outside segs cdf vel kc mean lam dt u seg r0 rounds s = .ok s') :
    ∃ (new : List (Particle K)) (bs : List ℕ), s'.live = s.live ++ new ∧ bs.length = new.length ∧
      (new.length : ℤ) = roundedCount (kc * (mean.getD lam) * dt / s.ref) u ∧
      (∀ k, bs.count k = (List.range new.length).countP (fun j => decide (cdfLo cdf k ≤ seg j ∧ seg j < cdfHi cdf k))) ∧
      ∀ (i : ℕ) (p : Particle K) (b : ℕ), new[i]? = some p → bs[i]? = some b →
        b < vs.length ∧ ∃ (g : PhSeg K) (e : K × K), segs[b]? = some g ∧ UnitNormal vs b g.nx g.ny ∧ OnWall vs b e ∧
          p .x = e.1 + 1 / 10 ^ 14 * g.nx ∧ p .y = e.2 + 1 / 10 ^ 14 * g.ny ∧ outside (p .x) (p .y) = false ∧
          (p .vx, p .vy, p .vz) = vel i g := by
  have hst := roundedCount_nonneg (kc * (mean.getD lam) * dt / s.ref) u (div_nonneg hq hr.le)
  unfold photoSegGenerate at hok
  dsimp only at hok
  rw [photoCount_eq _ _ _ _ _ _ (div_nonneg hq hr.le)] at hok
  generalize hn : roundedCount (kc * (mean.getD lam) * dt / s.ref) u = n at hok hst
  by_cases hpos : 0 < n
  · rw [if_pos hpos] at hok
    split at hok
    · cases hok
    · next gs hgs =>
      split at hok
      · cases hok
      · next pts hp =>
        set bs := ((List.range n.toNat).map (fun i => cdfBin cdf (seg i))).insertionSort (· ≤ ·) with hbs
        have hblen : bs.length = n.toNat := by rw [hbs, List.length_insertionSort]; simp
        have hlen : pts.length = n.toNat := by
          unfold phPoints at hp
          rw [rejectLoop_length _ _ _ _ _ hp]; simp
        rw [hlen] at hok
        have hmap := mapM_ok _ _ _ hgs
        have hglen : gs.length = n.toNat := by
          rw [← hmap.length_eq, hblen]
        have hin := rejectLoop_inside _ _ _ _ _ hp
        have hgs2 : ∀ (i : ℕ) (g : PhSeg K) (b : ℕ), gs[i]? = some g → bs[i]? = some b → segs[b]? = some g := by
          intro i g b hg hb
          obtain ⟨hi, hge⟩ := List.getElem?_eq_some_iff.1 hg
          obtain ⟨hi', hbe⟩ := List.getElem?_eq_some_iff.1 hb
          have h2 := (List.forall₂_iff_get.mp hmap).2 i hi' hi
          simp only [List.get_eq_getElem, hge, hbe] at h2
          split at h2
          · next g' hg' => rw [hg']; cases h2; rfl
          · cases h2
        have hline := rejectLoop_pred outside
          (fun (g : PhSeg K) (r _ : K) => (g.x0 + r * g.dx, g.y0 + r * g.dy))
          (fun p => ∃ r, (0 ≤ r ∧ r < 1) ∧ p.2.1 = p.1.x0 + r * p.1.dx ∧ p.2.2 = p.1.y0 + r * p.1.dy)
          (rounds.map (fun r => (r, r))) (fun r hr i c => by
            obtain ⟨r', hr', rfl⟩ := List.mem_map.1 hr
            exact ⟨_, hrr r' hr' i, rfl, rfl⟩) _ _ (by
            intro p hp
            obtain ⟨i, -, rfl⟩ := List.mem_map.1 hp
            exact ⟨_, hr0 i, rfl, rfl⟩) hp
        have hfst := rejectLoop_fst outside
          (fun (g : PhSeg K) (r _ : K) => (g.x0 + r * g.dx, g.y0 + r * g.dy)) (rounds.map (fun r => (r, r))) _ _ hp
        have hpm : ∀ (i : ℕ) (p : PhSeg K × K × K), pts[i]? = some p → gs[i]? = some p.1 := by
          intro i p hpi
          obtain ⟨hi, -⟩ := List.getElem?_eq_some_iff.1 hpi
          have hi' : i < n.toNat := by omega
          have : (pts.map (·.1))[i]? = some p.1 := by rw [List.getElem?_map, hpi]; rfl
          rw [hfst, List.map_map, List.getElem?_map, List.getElem?_range hi'] at this
          simp only [Option.map_some, Function.comp_apply, Option.some.injEq] at this
          rw [← this, List.getElem?_eq_getElem (by omega), List.getD_eq_getElem _ _ (by omega)]
        obtain ⟨hlive, -, -, -, -, -⟩ := addNew_live s s' h n.toNat _ ((pts.map (fun p => (⟨p.2.1, p.2.2, 0, p.1.nx,
          p.1.ny, 0⟩ : Hit K))).map (·.x)) rfl (by simpa using hlen) (fun _ => hroom) (by
            intro f _
            cases f <;> simp [photoSrc, Src.Fits, hlen]) hok
        refine ⟨_, bs, hlive, ?_, ?_, ?_, ?_⟩
        · rw [srcParticles_length, hblen]
        · rw [srcParticles_length]; omega
        · intro k
          rw [srcParticles_length, hbs, (List.perm_insertionSort _ _).count_eq, List.count, List.countP_map]
          apply List.countP_congr
          intro j _
          simp only [Function.comp_apply, beq_iff_eq, decide_eq_true_eq]
          exact bin_iff sq vs cdf segs hl h0 (seg j) (hseg j).1 (hseg j).2 k
        · intro i p b hpi hbi
          obtain ⟨hi, rfl⟩ := List.getElem?_eq_some_iff.1 hpi
          have hi' : i < n.toNat := by simpa [srcParticles] using hi
          have ht : ∀ f, f ≠ Fld.tl → s.tracked f = true := fun f hf => tracked_main s f hf
          have hpt : pts[i]? = some (pts[i]'(by omega)) := List.getElem?_eq_getElem _
          have hg := hgs2 i _ b (hpm i _ hpt) hbi
          have hmem : pts[i]'(by omega) ∈ pts := List.getElem_mem _
          obtain ⟨r, ⟨hra, hrb⟩, hr1, hr2⟩ := hline _ hmem
          obtain ⟨hb, hnorm, hx0, hy0, hdx, hdy⟩ := loadPhem_seg hsq hl b _ hg
          refine ⟨hb, _, pointAt (vtx vs b) (vtx vs (b + 1)) r, hg, hnorm, ⟨r, hra, hrb.le, rfl⟩, ?_⟩
          rw [srcParticles_array _ _ (photoSrc s.ref (pts.map (fun p => (⟨p.2.1, p.2.2, 0, p.1.nx, p.1.ny, 0⟩ : Hit K))) (pts.mapIdx (fun i p => vel i p.1))) .vx _ (ht _ (by decide)) rfl i hi' (by simpa using hlen),
            srcParticles_array _ _ (photoSrc s.ref (pts.map (fun p => (⟨p.2.1, p.2.2, 0, p.1.nx, p.1.ny, 0⟩ : Hit K))) (pts.mapIdx (fun i p => vel i p.1))) .vy _ (ht _ (by decide)) rfl i hi' (by simpa using hlen),
            srcParticles_array _ _ (photoSrc s.ref (pts.map (fun p => (⟨p.2.1, p.2.2, 0, p.1.nx, p.1.ny, 0⟩ : Hit K))) (pts.mapIdx (fun i p => vel i p.1))) .vz _ (ht _ (by decide)) rfl i hi' (by simpa using hlen),
            srcParticles_array _ _ (photoSrc s.ref (pts.map (fun p => (⟨p.2.1, p.2.2, 0, p.1.nx, p.1.ny, 0⟩ : Hit K))) (pts.mapIdx (fun i p => vel i p.1))) .x _ (ht _ (by decide)) rfl i hi' (by simpa using hlen),
            srcParticles_array _ _ (photoSrc s.ref (pts.map (fun p => (⟨p.2.1, p.2.2, 0, p.1.nx, p.1.ny, 0⟩ : Hit K))) (pts.mapIdx (fun i p => vel i p.1))) .y _ (ht _ (by decide)) rfl i hi' (by simpa using hlen)]
          refine ⟨?_, ?_, ?_, ?_⟩
          · simp only [List.getElem_map]
            rw [hr1, hx0, hdx]
            simp only [pointAt]
            ring
          · simp only [List.getElem_map]
            rw [hr2, hy0, hdy]
            simp only [pointAt]
            ring
          · simp only [List.getElem_map]
            exact hin _ hmem
          · simp
  · rw [if_neg hpos] at hok
    cases hok
    have hn0 : n = 0 := by omega
    exact ⟨[], [], by simp, rfl, by simp [hn0], by simp, by simp⟩

end

/-- **C100**, the share of a segment: with an accepted `phem_cdf` whose first entry is not negative, the random numbers of [0, 1)
that choose segment `k` are a set of length `phem_cdf[k] - phem_cdf[k-1]`. -/
theorem C100_share (sq : ℝ → ℝ) (vs : List (ℝ × ℝ)) (cdf : List ℝ) (segs : List (PhSeg ℝ)) (hl : loadPhem sq vs cdf = .ok segs)
    (h0 : 0 ≤ cdf.headD 0) (k : ℕ) (hk : k < cdf.length) :
    MeasureTheory.volume {r : ℝ | 0 ≤ r ∧ r < 1 ∧ cdfBin cdf r = k} = ENNReal.ofReal (cdfHi cdf k - cdfLo cdf k) := by
  obtain ⟨h1, h2, -⟩ := loadPhem_ok hl
  have hm := loadPhem_mono hl h0
  have hge0 : 0 ≤ cdfLo cdf k := by
    unfold cdfLo
    by_cases hk0 : k = 0
    · rw [if_pos hk0]
    · rw [if_neg hk0, List.getD_eq_getElem?_getD, List.getElem?_eq_getElem (by omega)]
      exact pairs_mono_sorted cdf 0 hm _ (List.getElem_mem _)
  have hle1 : cdfHi cdf k ≤ 1 := by
    have key : ∀ (l : List ℝ) (e : ℝ), (∀ q ∈ pairs (e :: l), q.1 ≤ q.2) → ∀ x ∈ l, x ≤ (e :: l).getLastD 0 := by
      intro l
      induction l with
      | nil => intro e _ x hx; simp at hx
      | cons f l ih =>
        intro e hm x hx
        have hm' : ∀ q ∈ pairs (f :: l), q.1 ≤ q.2 := fun q hq => hm q (by simp only [pairs]; exact List.mem_cons_of_mem _ hq)
        have e1 : (e :: f :: l).getLastD 0 = (f :: l).getLastD 0 := by simp
        rw [e1]
        rcases List.mem_cons.1 hx with rfl | hx
        · exact pairs_mono_last l x hm'
        · exact ih f hm' x hx
    have hlast : (0 :: cdf).getLastD 0 = 1 := by
      rw [← h2]
      cases cdf with
      | nil => simp at h1
      | cons c l => simp
    rw [cdfHi, List.getD_eq_getElem?_getD, List.getElem?_eq_getElem hk, ← hlast]
    exact key cdf 0 hm _ (List.getElem_mem _)
  have : {r : ℝ | 0 ≤ r ∧ r < 1 ∧ cdfBin cdf r = k} = Set.Ico (cdfLo cdf k) (cdfHi cdf k) := by
    ext r
    simp only [Set.mem_ofPred_eq, Set.mem_Ico]
    constructor
    · rintro ⟨a, b, c⟩
      exact (bin_iff sq vs cdf segs hl h0 r a b k).1 c
    · rintro ⟨a, b⟩
      have ha := hge0.trans a
      have hb := lt_of_lt_of_le b hle1
      exact ⟨ha, hb, (bin_iff sq vs cdf segs hl h0 r ha hb k).2 ⟨a, b⟩⟩
  rw [this, Real.volume_Ico]

/-! ## Photons that travel to the wall -/

/-- **C100**, emission from photon trajectories in a convex chamber: if the photons start inside and their end points are
beyond the wall, every photoelectron is on the straight line of its photon, at the fraction `resc` of the way to the first point
of the wall, with its velocity drawn around the inward normal of this wall. -/
theorem C100_first_wall {K : Type} [Field K] [LinearOrder K] [IsStrictOrderedRing K] [FloorRing K]
    (sq : K → K) (hsq : IsSqrt sq) (vs : List (K × K)) (cx cy : K) (P : Poly K) (hP : mkPoly sq vs cx cy true = .ok P)
    (resc : K) (h0 : 0 ≤ resc) (h1 : resc < 1) (vel : ℕ → Hit K → K × K × K) (ends : ℕ → (K × K) × (K × K)) (kc : K)
    (mean : Option K) (lam dt u : K) (s s' : MPs K) (h : s.WF) (hroom : s.nmp < s.cap) (hr : 0 < s.ref)
    (hq : 0 ≤ kc * (mean.getD lam) * dt) (hu : 0 ≤ u) (hin : ∀ k, StrictlyInside vs (ends k).1)
    (hout : ∀ k, ∃ i < vs.length, cross3 (vtx vs i) (vtx vs (i + 1)) (ends k).2 < 0)
    (hok : photoGenerate (P.chamber resc true) vel ends kc mean lam dt u s = .ok s') :
    ∃ new : List (Particle K), s'.live = s.live ++ new ∧
      (new.length : ℤ) = roundedCount (kc * (mean.getD lam) * dt / s.ref) u ∧
      ∀ (k : ℕ) (p : Particle K), new[k]? = some p → ∃ (w : K) (i : ℕ) (q : Hit K), 0 < w ∧ w < 1 ∧ i < vs.length ∧
        OnWall vs i (pointAt (ends k).1 (ends k).2 w) ∧
        (∀ v, 0 ≤ v → v < w → StrictlyInside vs (pointAt (ends k).1 (ends k).2 v)) ∧
        (p .x, p .y) = pointAt (ends k).1 (ends k).2 (resc * w) ∧ StrictlyInside vs (p .x, p .y) ∧
        UnitNormal vs i q.nx q.ny ∧ (p .vx, p .vy, p .vz) = vel k q := by
  obtain ⟨new, e1, e2, e3, -⟩ := C45_photoemission (P.chamber resc true) vel ends kc mean lam dt u s s' h hroom hr hq hu
    (fun k q hk => (C48_robust_inside P resc _ _).1 q hk) hok
  refine ⟨new, e1, e2, fun k p hp => ?_⟩
  obtain ⟨-, -, -, -, q, hhit, hx, hy, hv⟩ := e3 k p hp
  obtain ⟨q', w, i, hh, a1, a2, a3, -, a5, a6, -, a8, a9, -, a11, -⟩ := C48_first_exit_partial sq hsq vs cx cy P hP resc h0 h1
    true (ends k).1 (ends k).2 0 0 (hin k) (hout k)
  have : q = q' := Except.ok.inj (hhit.symm.trans hh)
  subst this
  exact ⟨w, i, q, a1, a2, a3, a5, a6, by rw [hx, hy]; exact a8, by rw [hx, hy]; exact a9, a11, hv⟩

open Real in
/-- The half-line along which a photon travels: reflected ones from the point `x0` if an inverse distribution is given. -/
noncomputable def photonRay (refl unif : Bool) (x0 : ℝ) (icdf : ℝ → ℝ) (u g : ℝ) : (ℝ × ℝ) × (ℝ × ℝ) :=
  if refl = false then ((0, 0), (cos g, sin g))
  else if unif then ((0, 0), (cos (2 * π * u), sin (2 * π * u)))
  else ((x0, 0), (-cos (icdf u), sin (icdf u)))

/-- **C100**, direction of the photons of `photoem_flag = 1`: in a convex chamber that contains the centre and the point `x0`,
and is inside both circles, every photoelectron is on the half-line of its photon, at the fraction `resc` of the distance to the
wall. -/
theorem C100_direction (vs : List (ℝ × ℝ)) (cx cy : ℝ) (P : Poly ℝ) (hP : mkPoly Real.sqrt vs cx cy true = .ok P)
    (resc : ℝ) (h0 : 0 ≤ resc) (h1 : resc < 1) (vel : ℕ → Hit ℝ → ℝ × ℝ × ℝ) (refl : ℕ → Bool) (unif : Bool) (rad x0 : ℝ)
    (hrad : 0 < rad) (icdf : ℝ → ℝ) (us gs : ℕ → ℝ) (kc : ℝ) (mean : Option ℝ) (lam dt u : ℝ) (s s' : MPs ℝ) (h : s.WF)
    (hroom : s.nmp < s.cap) (hr : 0 < s.ref) (hq : 0 ≤ kc * (mean.getD lam) * dt) (hu : 0 ≤ u)
    (hc0 : StrictlyInside vs (0, 0)) (hx0 : StrictlyInside vs (x0, 0))
    (hcirc : ∀ th, ∃ i < vs.length, cross3 (vtx vs i) (vtx vs (i + 1)) (rad * Real.cos th, rad * Real.sin th) < 0)
    (hcirc2 : ∀ th, ∃ i < vs.length, cross3 (vtx vs i) (vtx vs (i + 1))
      (-2 * rad * Real.cos th + x0, 2 * rad * Real.sin th) < 0)
    (hok : photoGenerate (P.chamber resc true) vel (fun k => photoEnds (refl k) unif rad x0 icdf (us k) (gs k)) kc mean lam dt u s
      = .ok s') :
    ∃ new : List (Particle ℝ), s'.live = s.live ++ new ∧
      (new.length : ℤ) = roundedCount (kc * (mean.getD lam) * dt / s.ref) u ∧
      ∀ (k : ℕ) (p : Particle ℝ), new[k]? = some p → ∃ (d : ℝ) (i : ℕ) (q : Hit ℝ), 0 < d ∧ i < vs.length ∧
        (let o := (photonRay (refl k) unif x0 icdf (us k) (gs k)).1
         let n := (photonRay (refl k) unif x0 icdf (us k) (gs k)).2
         OnWall vs i (o.1 + d * n.1, o.2 + d * n.2) ∧
         (∀ v, 0 ≤ v → v < d → StrictlyInside vs (o.1 + v * n.1, o.2 + v * n.2)) ∧
         p .x = o.1 + resc * d * n.1 ∧ p .y = o.2 + resc * d * n.2) ∧
        UnitNormal vs i q.nx q.ny ∧ (p .vx, p .vy, p .vz) = vel k q := by
  have hin : ∀ k, StrictlyInside vs (photoEnds (refl k) unif rad x0 icdf (us k) (gs k)).1 := by
    intro k
    unfold photoEnds
    split
    · split
      · exact hc0
      · exact hx0
    · exact hc0
  have hout : ∀ k, ∃ i < vs.length, cross3 (vtx vs i) (vtx vs (i + 1)) (photoEnds (refl k) unif rad x0 icdf (us k) (gs k)).2 < 0 := by
    intro k
    unfold photoEnds
    split
    · split
      · exact hcirc _
      · exact hcirc2 _
    · exact hcirc _
  obtain ⟨new, e1, e2, e3⟩ := C100_first_wall Real.sqrt isSqrt_real vs cx cy P hP resc h0 h1 vel _ kc mean lam dt u s s' h hroom hr
    hq hu hin hout hok
  refine ⟨new, e1, e2, fun k p hp => ?_⟩
  obtain ⟨w, i, q, a1, a2, a3, a4, a5, a6, -, a8, a9⟩ := e3 k p hp
  have key : ∃ rho : ℝ, 0 < rho ∧ ∀ t, pointAt (photoEnds (refl k) unif rad x0 icdf (us k) (gs k)).1
      (photoEnds (refl k) unif rad x0 icdf (us k) (gs k)).2 t =
      ((photonRay (refl k) unif x0 icdf (us k) (gs k)).1.1 + rho * t * (photonRay (refl k) unif x0 icdf (us k) (gs k)).2.1,
       (photonRay (refl k) unif x0 icdf (us k) (gs k)).1.2 + rho * t * (photonRay (refl k) unif x0 icdf (us k) (gs k)).2.2) := by
    unfold photoEnds photonRay
    cases refl k with
    | false =>
      refine ⟨rad, hrad, fun t => ?_⟩
      simp only [Bool.false_eq_true, if_false, if_true, pointAt]
      ext <;> simp only <;> ring
    | true =>
      cases unif with
      | true =>
        refine ⟨rad, hrad, fun t => ?_⟩
        simp only [Bool.true_eq_false, if_false, if_true, pointAt]
        ext <;> simp only <;> ring
      | false =>
        refine ⟨2 * rad, by linarith, fun t => ?_⟩
        simp only [Bool.true_eq_false, Bool.false_eq_true, if_false, if_true, pointAt]
        ext <;> simp only <;> ring
  obtain ⟨rho, hrho, hk⟩ := key
  refine ⟨rho * w, i, q, mul_pos hrho a1, a3, ⟨?_, ?_, ?_, ?_⟩, a8, a9⟩
  · rw [hk] at a4
    exact a4
  · intro v hv0 hv1
    have := a5 (v / rho) (div_nonneg hv0 hrho.le) (by rw [div_lt_iff₀ hrho]; linarith [mul_comm rho w])
    rw [hk, mul_div_cancel₀ _ hrho.ne'] at this
    exact this
  · rw [hk] at a6
    rw [show p .x = _ from congrArg Prod.fst a6]
    ring
  · rw [hk] at a6
    rw [show p .y = _ from congrArg Prod.snd a6]
    ring

/-- **C100**, direction of the photons of `photoem_flag = 'from_file'`: in a convex chamber that contains the centre and is inside
the circle, every photoelectron is seen from the centre at the angle `2 π u`, or at the angle of the table, at the fraction `resc`
of the distance to the wall. -/
theorem C100_direction_file (vs : List (ℝ × ℝ)) (cx cy : ℝ) (P : Poly ℝ) (hP : mkPoly Real.sqrt vs cx cy true = .ok P)
    (resc : ℝ) (h0 : 0 ≤ resc) (h1 : resc < 1) (vel : ℕ → Hit ℝ → ℝ × ℝ × ℝ) (unif : Bool) (rad : ℝ)
    (hrad : 0 < rad) (icdf : ℝ → ℝ) (us : ℕ → ℝ) (kc : ℝ) (mean : Option ℝ) (lam dt u : ℝ) (s s' : MPs ℝ) (h : s.WF)
    (hroom : s.nmp < s.cap) (hr : 0 < s.ref) (hq : 0 ≤ kc * (mean.getD lam) * dt) (hu : 0 ≤ u)
    (hc0 : StrictlyInside vs (0, 0))
    (hcirc : ∀ th, ∃ i < vs.length, cross3 (vtx vs i) (vtx vs (i + 1)) (rad * Real.cos th, rad * Real.sin th) < 0)
    (hok : photoGenerate (P.chamber resc true) vel (fun k => photoFileEnds unif rad icdf (us k)) kc mean lam dt u s = .ok s') :
    ∃ new : List (Particle ℝ), s'.live = s.live ++ new ∧
      (new.length : ℤ) = roundedCount (kc * (mean.getD lam) * dt / s.ref) u ∧
      ∀ (k : ℕ) (p : Particle ℝ), new[k]? = some p → ∃ (d : ℝ) (i : ℕ) (q : Hit ℝ), 0 < d ∧ i < vs.length ∧
        (let th := if unif then 2 * Real.pi * us k else icdf (us k)
         OnWall vs i (d * Real.cos th, d * Real.sin th) ∧
         (∀ v, 0 ≤ v → v < d → StrictlyInside vs (v * Real.cos th, v * Real.sin th)) ∧
         p .x = resc * d * Real.cos th ∧ p .y = resc * d * Real.sin th) ∧
        UnitNormal vs i q.nx q.ny ∧ (p .vx, p .vy, p .vz) = vel k q := by
  obtain ⟨new, e1, e2, e3⟩ := C100_first_wall Real.sqrt isSqrt_real vs cx cy P hP resc h0 h1 vel _ kc mean lam dt u s s' h hroom hr
    hq hu (fun k => hc0) (fun k => hcirc _) hok
  refine ⟨new, e1, e2, fun k p hp => ?_⟩
  obtain ⟨w, i, q, a1, a2, a3, a4, a5, a6, -, a8, a9⟩ := e3 k p hp
  have hth : (if unif then us k * 2 * Real.pi else icdf (us k)) = (if unif then 2 * Real.pi * us k else icdf (us k)) := by
    split
    · ring
    · rfl
  have hk : ∀ t, pointAt (photoFileEnds unif rad icdf (us k)).1 (photoFileEnds unif rad icdf (us k)).2 t =
      (rad * t * Real.cos (if unif then 2 * Real.pi * us k else icdf (us k)),
       rad * t * Real.sin (if unif then 2 * Real.pi * us k else icdf (us k))) := by
    intro t
    unfold photoFileEnds
    dsimp only
    rw [hth]
    simp only [pointAt]
    ext <;> simp only <;> ring
  refine ⟨rad * w, i, q, mul_pos hrad a1, a3, ⟨?_, ?_, ?_, ?_⟩, a8, a9⟩
  · rw [hk] at a4
    exact a4
  · intro v hv0 hv1
    have := a5 (v / rad) (div_nonneg hv0 hrad.le) (by rw [div_lt_iff₀ hrad]; linarith [mul_comm rad w])
    rw [hk, mul_div_cancel₀ _ hrad.ne'] at this
    exact this
  · rw [hk] at a6
    rw [show p .x = _ from congrArg Prod.fst a6]
    ring
  · rw [hk] at a6
    rw [show p .y = _ from congrArg Prod.snd a6]
    ring

theorem mapM_exists {α β : Type} (f : α → Except PyErr β) : ∀ l : List α, (∀ x ∈ l, ∃ y, f x = .ok y) →
    ∃ ys, l.mapM f = .ok ys ∧ ys.length = l.length
  | [], _ => ⟨[], rfl, rfl⟩
  | a :: l, h => by
    obtain ⟨y, hy⟩ := h a (by simp)
    obtain ⟨ys, hys, hlen⟩ := mapM_exists f l (fun x hx => h x (List.mem_cons_of_mem _ hx))
    exact ⟨y :: ys, by rw [List.mapM_cons, hy, hys]; rfl, by simp [hlen]⟩

/-- **C100**: as long as there is room and the photons start inside the chamber, the emission succeeds. -/
theorem C100_succeeds {K : Type} [Field K] [LinearOrder K] [IsStrictOrderedRing K] [FloorRing K] (P : Poly K) (resc : K)
    (vel : ℕ → Hit K → K × K × K) (ends : ℕ → (K × K) × (K × K)) (kc : K) (mean : Option K) (lam dt u : K) (s : MPs K) (h : s.WF)
    (hr : 0 < s.ref) (hq : 0 ≤ kc * (mean.getD lam) * dt) (hin : ∀ k, P.outside (ends k).1.1 (ends k).1.2 = false)
    (hroom : (s.nmp : ℤ) + roundedCount (kc * (mean.getD lam) * dt / s.ref) u ≤ s.cap) :
    ∃ s', photoGenerate (P.chamber resc true) vel ends kc mean lam dt u s = .ok s' := by
  unfold photoGenerate
  dsimp only
  rw [photoCount_eq _ _ _ _ _ _ (div_nonneg hq hr.le)]
  generalize roundedCount (kc * (mean.getD lam) * dt / s.ref) u = n at hroom
  by_cases hpos : 0 < n
  · rw [if_pos hpos]
    unfold photoSet
    obtain ⟨hits, hh, hlen⟩ := mapM_exists (fun q : (K × K) × (K × K) => (P.chamber resc true).hit (q.1.1, q.1.2, 0) (q.2.1, q.2.2, 0))
      ((List.range n.toNat).map ends) (by
        intro q hq
        obtain ⟨k, -, rfl⟩ := List.mem_map.1 hq
        exact (C48_robust_inside P resc _ _).2 (hin k))
    rw [hh]
    have hl : hits.length = ((List.range n.toNat).map ends).length := hlen
    obtain ⟨s', h1, -⟩ := addNew_ok s h ((List.range n.toNat).map ends).length (photoSrc s.ref hits (hits.mapIdx vel)) (by
      simp only [List.length_map, List.length_range]
      omega) (by
      intro f _
      cases f <;> simp [photoSrc, Src.Fits, hlen])
    exact ⟨s', h1⟩
  · rw [if_neg hpos]
    exact ⟨s, rfl⟩

/-- **C100**, the inverse distribution function: with an increasing table (`u_sam`, `angles`), a random number not above the last
`u_sam` gives an angle not above `angles[k]` exactly if it is not above `u_sam[k]`. -/
theorem C100_inverse_cdf {K : Type} [Field K] [LinearOrder K] [IsStrictOrderedRing K] (t : List (K × K)) (p0 : K × K) (tl : List (K × K))
    (ht : t = p0 :: tl) (hm : ∀ q ∈ pairs t, q.1.1 < q.2.1 ∧ q.1.2 < q.2.2) (x : K) (hx0 : p0.1 ≤ x) (hx : x ≤ (t.getLastD p0).1) :
    ∃ th, npInterp t x = .ok th ∧ ∀ q ∈ t, (th ≤ q.2 ↔ x ≤ q.1) := by
  subst ht
  refine ⟨_, rfl, ?_⟩
  rw [if_neg (not_lt.2 hx0)]
  exact npInterpFrom_le tl p0 x hm hx0 hx

/-! ## Examples -/

/-- square with vertices at ±1 -/
def phSq : List (ℚ × ℚ) := [(-1, -1), (1, -1), (1, 1), (-1, 1)]

/-- a function that is the square root at 4 -/
def phRoot (x : ℚ) : ℚ := if x = 4 then 2 else x

theorem phRoot_ok : EdgeRoots phRoot phSq := by
  unfold EdgeRoots
  decide +kernel

/-- the real square root gives the lengths of the edges of every polygon -/
theorem edgeRoots_real (vs : List (ℝ × ℝ)) : EdgeRoots Real.sqrt vs := fun _ _ =>
  Real.mul_self_sqrt (add_nonneg (mul_self_nonneg _) (mul_self_nonneg _))

/-- the chamber is accepted, and of five random numbers one chooses each of the first three segments and two the last -/
example : (∃ segs, loadPhem phRoot phSq [1 / 4, 1 / 2, 3 / 4, 1] = .ok segs ∧
      segs.map (fun g => (g.nx, g.ny)) = [(0, 1), (-1, 0), (0, -1), (1, 0)]) ∧
    segHistogram [1 / 4, 1 / 2, 3 / 4, 1] [1 / 3, (9 / 10 : ℚ), 0, 3 / 4, 5 / 8] = .ok [1, 1, 1, 2] ∧
    expandCounts [1, 1, 1, 2] = [0, 1, 2, 3, 3] :=
  ⟨exists_ok (by decide +kernel), by decide +kernel, by decide +kernel⟩

/-- two photoelectrons, on the fourth and on the second segment -/
example : ∃ s', photoSegGenerate (fun x y => decide (1 ≤ |x| ∨ 1 ≤ |y|))
    ((pairs (closeList phSq)).map (fun q => mkPhSeg phRoot q.1 q.2)) [1 / 4, 1 / 2, 3 / 4, 1]
    (fun _ g => (g.nx, g.ny, 0)) 1 none 5 1 (1 / 4) (fun i => 7 / 8 - (i : ℚ) / 2) (fun _ => 1 / 4) []
    { toy with ref := 5 / 2 } = .ok s' ∧
    (s'.live.drop toy.nmp).map (fun p : Particle ℚ => (p .x, p .y, p .vx)) =
      [(1 - 1 / 10 ^ 14, -1 / 2, -1), (-1 + 1 / 10 ^ 14, 1 / 2, 1)] :=
  exists_ok (by decide +kernel)

/-- an increasing table of three nodes -/
example : npInterp [(0, -1), (1 / 4, 0), (1, 3)] (1 / 2 : ℚ) = .ok 1 ∧
    (∀ q ∈ pairs [((0 : ℚ), (-1 : ℚ)), (1 / 4, 0), (1, 3)], q.1.1 < q.2.1 ∧ q.1.2 < q.2.2) := by decide +kernel

/-- the circle of radius 2 is outside the square of half side 1 -/
theorem circle2_outside (th : ℝ) : ∃ i < sq2.length, cross3 (vtx sq2 i) (vtx sq2 (i + 1)) (2 * Real.cos th, 2 * Real.sin th) < 0 := by
  by_contra hc
  push Not at hc
  have := Real.sin_sq_add_cos_sq th
  have a0 := hc 0 (by decide)
  have a1 := hc 1 (by decide)
  have a2 := hc 2 (by decide)
  have a3 := hc 3 (by decide)
  simp only [cross3, vtx, sq2] at a0 a1 a2 a3
  norm_num at a0 a1 a2 a3
  nlinarith

/-- the hypotheses of `C100_direction` are met by the square, the centre and circles of radius 2 and 4 -/
example : ∃ P, mkPoly Real.sqrt sq2 (99 / 100 * 1) (99 / 100 * 1) true = .ok P ∧ P.outside 0 0 = false ∧ StrictlyInside sq2 (0, 0) ∧
    (∀ th, ∃ i < sq2.length, cross3 (vtx sq2 i) (vtx sq2 (i + 1)) (2 * Real.cos th, 2 * Real.sin th) < 0) ∧
    (∀ th, ∃ i < sq2.length, cross3 (vtx sq2 i) (vtx sq2 (i + 1)) (-2 * 2 * Real.cos th + 0, 2 * 2 * Real.sin th) < 0) := by
  obtain ⟨P, hP⟩ := sq2_ok
  refine ⟨P, hP, (C47_rectangle _ 1 1 one_pos one_pos P hP _ _).2 (by norm_num), (rect_interior 1 1 0 0 one_pos one_pos).2 (by norm_num),
    circle2_outside, fun th => ?_⟩
  by_contra hc
  push Not at hc
  have := Real.sin_sq_add_cos_sq th
  have a0 := hc 0 (by decide)
  have a1 := hc 1 (by decide)
  have a2 := hc 2 (by decide)
  have a3 := hc 3 (by decide)
  simp only [cross3, vtx, sq2] at a0 a1 a2 a3
  norm_num at a0 a1 a2 a3
  nlinarith

/-! ## Violations -/

/-- **C100** is violated: a `phem_cdf` with a negative first entry passes the checks of the chamber, and the first generation of
photoelectrons fails. -/
theorem C100_violated_negative (draws : List ℚ) :
    (∃ segs, loadPhem phRoot phSq [-1 / 2, 0, 0, 1] = .ok segs ∧ segs.length = 4) ∧
    segHistogram [-1 / 2, 0, 0, 1] draws = .error .valueError := by
  refine ⟨exists_ok (by decide +kernel), ?_⟩
  unfold segHistogram npHistogram
  rw [if_pos (by decide +kernel)]

/-- **C100** is violated: a `phem_cdf` that is shorter than the list of segments is accepted, and no photoelectron is ever
emitted from the remaining segments. -/
theorem C100_violated_short : (∃ segs, loadPhem phRoot phSq [1 / 2, 1] = .ok segs ∧ segs.length = 4) ∧
    ∀ draws : List ℚ, ∀ c, segHistogram [1 / 2, 1] draws = .ok c → c.length = 2 := by
  refine ⟨exists_ok (by decide +kernel), fun draws c h => ?_⟩
  unfold segHistogram npHistogram at h
  rw [if_neg (by decide +kernel)] at h
  cases h
  rfl

/-- **C100** is violated: a `phem_cdf` that is longer than the list of segments is accepted, and the generation fails once a
photoelectron falls beyond the last segment. -/
theorem C100_violated_long : (∃ segs, loadPhem phRoot phSq [1 / 4, 1 / 2, 3 / 4, 3 / 4, 1] = .ok segs ∧ segs.length = 4 ∧
    ∀ (outside : ℚ → ℚ → Bool) (vel : ℕ → PhSeg ℚ → ℚ × ℚ × ℚ) (r0 : ℕ → ℚ) (rounds : List (ℕ → ℚ)) (seg : ℕ → ℚ),
      3 / 4 ≤ seg 0 → seg 0 < 1 → photoSegGenerate outside segs [1 / 4, 1 / 2, 3 / 4, 3 / 4, 1] vel 1 none 5 (1 / 2) (3 / 4) seg r0 rounds
        { toy with ref := 5 / 2 } = .error .indexError) := by
  have hl : loadPhem phRoot phSq [1 / 4, 1 / 2, 3 / 4, 3 / 4, 1] = .ok ((pairs (closeList phSq)).map (fun q => mkPhSeg phRoot q.1 q.2)) := by
    obtain ⟨segs, h, -⟩ : ∃ segs, loadPhem phRoot phSq [1 / 4, 1 / 2, 3 / 4, 3 / 4, 1] = .ok segs ∧ segs.length = 4 :=
      exists_ok (by decide +kernel)
    rw [h, ← (loadPhem_ok h).2.2.2.2.2]
  refine ⟨_, hl, by decide +kernel, fun outside vel r0 rounds seg h1 h2 => ?_⟩
  have hb : cdfBin [1 / 4, 1 / 2, 3 / 4, 3 / 4, 1] (seg 0) = 4 :=
    (bin_iff phRoot phSq _ _ hl (by norm_num) (seg 0) (by linarith) h2 4).2 ⟨by simpa [cdfLo] using h1, by simpa [cdfHi] using h2⟩
  have hn : photoCount (1 : ℚ) none 5 (1 / 2) (5 / 2) (3 / 4) = 1 := by decide +kernel
  unfold photoSegGenerate
  dsimp only
  rw [hn, if_pos (by decide)]
  simp only [Int.toNat_one, List.range_one, List.map_cons, List.map_nil, hb, List.insertionSort_cons, List.insertionSort_nil,
    List.orderedInsert_nil]
  rfl

end PyECLOUD
