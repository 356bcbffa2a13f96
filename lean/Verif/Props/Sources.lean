import Verif.Lemmas.Sources
import Verif.Props.MPSystem
import Mathlib.MeasureTheory.Integral.IntervalIntegral.Basic

/-!
# Properties of the primary sources (C45, C67)
-/

namespace PyECLOUD

set_option linter.unusedSectionVars false

section
variable {K : Type} [Field K] [LinearOrder K] [IsStrictOrderedRing K] [FloorRing K]

/-- **C45**, gas ionisation: a call for `q = k_ion * lambda * Dt` electrons appends the rounded number of
macroparticles, all of the current reference size, inside the chamber, without impact history, with every
velocity component below `v0/2`, and leaves the existing ones unchanged; the charge is less than one reference
size off the request. -/
theorem C45_gas_ionisation (outside : K → K → Bool) (unifFrac xAper yAper kIon v0 lam dt sx sy xb yb : K)
    (d : GasDraws K) (s s' : MPs K) (h : s.WF) (hroom : s.nmp < s.cap) (hr : 0 < s.ref) (hq : 0 ≤ kIon * lam * dt)
    (hu : 0 ≤ d.u) (hv : InUnit d.rvx ∧ InUnit d.rvy ∧ InUnit d.rvz)
    (hok : gasGenerate outside unifFrac xAper yAper kIon v0 lam dt sx sy xb yb d s = .ok s') :
    ∃ new : List (Particle K), s'.live = s.live ++ new ∧
      (new.length : ℤ) = roundedCount (kIon * lam * dt / s.ref) d.u ∧
      (∀ p ∈ new, p .nel = s.ref ∧ outside (p .x) (p .y) = false ∧ p .z = 0 ∧ p .tl = -1 ∧
        |p .vx| ≤ |v0| / 2 ∧ |p .vy| ≤ |v0| / 2 ∧ |p .vz| ≤ |v0| / 2) ∧
      |totalCharge new - kIon * lam * dt| < s.ref := by
  have hst := roundedCount_nonneg (kIon * lam * dt / s.ref) d.u (div_nonneg hq hr.le)
  have hbound := roundedCount_charge (kIon * lam * dt) s.ref d.u hr hu
  unfold gasGenerate at hok
  dsimp only at hok
  rw [stochRound_eq] at hok
  generalize hn : roundedCount (kIon * lam * dt / s.ref) d.u = n at hok hst hbound
  by_cases hpos : 0 < n.toNat
  · rw [if_pos hpos] at hok
    split at hok
    · cases hok
    · next pts hp =>
      have hlen : pts.length = n.toNat := by
        rw [rejectLoop_length _ _ _ _ _ hp]; simp
      have hin := rejectLoop_inside _ _ _ _ _ hp
      obtain ⟨hlive, -, -, -, -, -⟩ := addNew_live s s' h n.toNat (gasSrc s v0 d pts) (pts.map (·.2.1)) rfl
        (by simpa using hlen) (fun _ => hroom) (by
          intro f _
          cases f <;> simp [gasSrc, Src.Fits, hlen]) hok
      have hall : ∀ p ∈ srcParticles s.tracked n.toNat (gasSrc s v0 d pts), p .nel = s.ref ∧
          outside (p .x) (p .y) = false ∧ p .z = 0 ∧ p .tl = -1 ∧
          |p .vx| ≤ |v0| / 2 ∧ |p .vy| ≤ |v0| / 2 ∧ |p .vz| ≤ |v0| / 2 := by
        intro p hp
        obtain ⟨i, hi, rfl⟩ := List.getElem_of_mem hp
        have hi' : i < n.toNat := by simpa [srcParticles] using hi
        have hvel : ∀ r : K, InUnit r → |v0 * (r - 1 / 2)| ≤ |v0| / 2 := by
          rintro r ⟨h1, h2⟩
          rw [abs_mul]
          have : |r - 1 / 2| ≤ 1 / 2 := abs_le.mpr ⟨by linarith, by linarith⟩
          calc |v0| * |r - 1 / 2| ≤ |v0| * (1 / 2) := mul_le_mul_of_nonneg_left this (abs_nonneg _)
            _ = |v0| / 2 := by ring
        have ht : ∀ f, f ≠ Fld.tl → s.tracked f = true := fun f hf => tracked_main s f hf
        rw [srcParticles_scalar _ _ (gasSrc s v0 d pts) .nel s.ref (ht _ (by decide)) rfl i hi',
          srcParticles_scalar _ _ (gasSrc s v0 d pts) .z 0 (ht _ (by decide)) rfl i hi',
          srcParticles_scalar _ _ (gasSrc s v0 d pts) .vx _ (ht _ (by decide)) rfl i hi',
          srcParticles_scalar _ _ (gasSrc s v0 d pts) .vy _ (ht _ (by decide)) rfl i hi',
          srcParticles_scalar _ _ (gasSrc s v0 d pts) .vz _ (ht _ (by decide)) rfl i hi',
          srcParticles_array _ _ (gasSrc s v0 d pts) .x _ (ht _ (by decide)) rfl i hi' (by simpa using hlen),
          srcParticles_array _ _ (gasSrc s v0 d pts) .y _ (ht _ (by decide)) rfl i hi' (by simpa using hlen)]
        refine ⟨rfl, ?_, rfl, ?_, hvel _ hv.1, hvel _ hv.2.1, hvel _ hv.2.2⟩
        · simp only [List.getElem_map]
          exact hin _ (List.getElem_mem _)
        · cases htl : s.tracked .tl with
          | true => exact srcParticles_scalar _ _ (gasSrc s v0 d pts) .tl _ htl rfl i hi'
          | false => exact srcParticles_untracked _ _ (gasSrc s v0 d pts) .tl htl i hi'
      refine ⟨_, hlive, ?_, hall, ?_⟩
      · rw [srcParticles_length]; omega
      · rw [totalCharge_const _ s.ref (fun p hp => (hall p hp).1), srcParticles_length]
        have : ((n.toNat : ℕ) : K) = ((n : ℤ) : K) := by
          rw [← Int.cast_natCast, Int.toNat_of_nonneg hst]
        rw [this]
        exact hbound
  · rw [if_neg hpos] at hok
    cases hok
    have h0 : n = 0 := by omega
    refine ⟨[], by simp, by simp [h0], by simp, ?_⟩
    rw [h0] at hbound
    simpa [totalCharge] using hbound

/-- **C45**, where the gas is ionised: every new macroparticle is at the first of its draws that is inside the chamber, which are uniform in the rectangle of
the aperture for the fraction `unif_frac` and normal draws scaled with the beam sizes around the position of the beam for the others. -/
theorem C45_gas_positions (outside : K → K → Bool) (unifFrac xAper yAper kIon v0 lam dt sx sy xb yb : K)
    (d : GasDraws K) (s s' : MPs K) (h : s.WF) (hroom : s.nmp < s.cap)
    (hok : gasGenerate outside unifFrac xAper yAper kIon v0 lam dt sx sy xb yb d s = .ok s')
    (i : ℕ) (p : Particle K) (hp : s'.live[s.live.length + i]? = some p) :
    (((d.x0 i, d.y0 i) :: d.rounds.map (fun r => (r.1 i, r.2 i))).map (fun q =>
        if d.kind i < unifFrac then (xAper * (2 * (q.1 - 1 / 2)), yAper * (2 * (q.2 - 1 / 2))) else (sx * q.1 + xb, sy * q.2 + yb))).find?
      (fun q => !outside q.1 q.2) = some (p .x, p .y) := by
  unfold gasGenerate at hok
  dsimp only at hok
  by_cases hpos : 0 < (stochRound (kIon * lam * dt / s.ref) d.u).toNat
  · rw [if_pos hpos] at hok
    generalize (stochRound (kIon * lam * dt / s.ref) d.u).toNat = n at hok hpos
    split at hok
    · cases hok
    · next pts hpts =>
      have hlen : pts.length = n := by
        rw [rejectLoop_length _ _ _ _ _ hpts]; simp
      obtain ⟨hlive, -⟩ := addNew_live s s' h n (gasSrc s v0 d pts) (pts.map (·.2.1)) rfl
        (by simpa using hlen) (fun _ => hroom) (by
          intro f _
          cases f <;> simp [gasSrc, Src.Fits, hlen]) hok
      rw [hlive, List.getElem?_append_right (Nat.le_add_right _ _), Nat.add_sub_cancel_left] at hp
      obtain ⟨hi, rfl⟩ := List.getElem?_eq_some_iff.1 hp
      have hi' : i < n := by simpa [srcParticles] using hi
      have ht : ∀ f, f ≠ Fld.tl → s.tracked f = true := fun f hf => tracked_main s f hf
      rw [srcParticles_array _ _ (gasSrc s v0 d pts) .x _ (ht _ (by decide)) rfl i hi' (by simpa using hlen),
        srcParticles_array _ _ (gasSrc s v0 d pts) .y _ (ht _ (by decide)) rfl i hi' (by simpa using hlen)]
      obtain ⟨q, q1, q2⟩ := rejectLoop_first _ _ _ _ _ hpts i _ (by
        rw [List.getElem?_map, List.getElem?_range hi']; rfl)
      obtain ⟨hl, hq⟩ := List.getElem?_eq_some_iff.1 q1
      simp only [List.getElem_map, hq]
      have hmap : ((d.x0 i, d.y0 i) :: d.rounds.map (fun r => (r.1 i, r.2 i))).map (fun q =>
          if d.kind i < unifFrac then (xAper * (2 * (q.1 - 1 / 2)), yAper * (2 * (q.2 - 1 / 2))) else (sx * q.1 + xb, sy * q.2 + yb)) =
          (gasGen xAper yAper sx sy xb yb (decide (d.kind i < unifFrac)) (d.x0 i) (d.y0 i)) ::
            d.rounds.map (fun r => gasGen xAper yAper sx sy xb yb (decide (d.kind i < unifFrac)) (r.1 i) (r.2 i)) := by
        rw [List.map_cons, List.map_map]
        by_cases hk : d.kind i < unifFrac <;> simp [gasGen, hk, Function.comp_def]
      rw [hmap]
      exact q2
  · rw [if_neg hpos] at hok
    cases hok
    rw [List.getElem?_eq_none (Nat.le_add_right _ _)] at hp
    cases hp

/-- **C45**, the rate: when `N` beam particles spread over a length `L` have gone by, the electrons requested per metre are `N` times gas density times cross
section, for a pressure in nTorr (133.32e-9 Pa), a temperature in K and a cross section in Mbarn (1e-22 m^2). -/
theorem C45_gas_rate (kB c pn sig tk N L : K) (hc : c ≠ 0) (hL : L ≠ 0) :
    gasIonRate kB c pn sig tk * (N / L) * (L / c) = N * ((pn * 133.32 / 10 ^ 9) / (kB * tk)) * (sig / 10 ^ 22) := by
  unfold gasIonRate
  field_simp
  norm_num
  ring

/-- **C45**, photoemission (with or without reflected photons, from file, continuous or not): the rounded number
of macroparticles of reference size is appended at the impact points of the photons, without impact history.
`hin` is what the chamber search guarantees (C48, C49): accepted points are inside. -/
theorem C45_photoemission (ch : Chamber K) (vel : ℕ → Hit K → K × K × K) (ends : ℕ → (K × K) × (K × K)) (kc : K)
    (mean : Option K) (lam dt u : K) (s s' : MPs K) (h : s.WF) (hroom : s.nmp < s.cap) (hr : 0 < s.ref)
    (hq : 0 ≤ kc * (mean.getD lam) * dt) (hu : 0 ≤ u)
    (hin : ∀ (k : ℕ) (q : Hit K), ch.hit ((ends k).1.1, (ends k).1.2, 0) ((ends k).2.1, (ends k).2.2, 0) = .ok q →
      ch.outside q.x q.y = false)
    (hok : photoGenerate ch vel ends kc mean lam dt u s = .ok s') :
    ∃ new : List (Particle K), s'.live = s.live ++ new ∧
      (new.length : ℤ) = roundedCount (kc * (mean.getD lam) * dt / s.ref) u ∧
      (∀ (k : ℕ) (p : Particle K), new[k]? = some p → p .nel = s.ref ∧ p .z = 0 ∧ p .tl = -1 ∧
        ch.outside (p .x) (p .y) = false ∧
        ∃ q : Hit K, ch.hit ((ends k).1.1, (ends k).1.2, 0) ((ends k).2.1, (ends k).2.2, 0) = .ok q ∧
          p .x = q.x ∧ p .y = q.y ∧ (p .vx, p .vy, p .vz) = vel k q) ∧
      |totalCharge new - kc * (mean.getD lam) * dt| < s.ref := by
  have hst := roundedCount_nonneg (kc * (mean.getD lam) * dt / s.ref) u (div_nonneg hq hr.le)
  have hbound := roundedCount_charge (kc * (mean.getD lam) * dt) s.ref u hr hu
  unfold photoGenerate at hok
  dsimp only at hok
  rw [photoCount_eq _ _ _ _ _ _ (div_nonneg hq hr.le)] at hok
  generalize hn : roundedCount (kc * (mean.getD lam) * dt / s.ref) u = n at hok hst hbound
  by_cases hpos : 0 < n
  · rw [if_pos hpos] at hok
    unfold photoSet at hok
    split at hok
    · cases hok
    · next hits hp =>
      have hmap := mapM_ok _ _ _ hp
      have hlen : hits.length = n.toNat := by
        rw [← hmap.length_eq]; simp
      have hlen2 : ((List.range n.toNat).map ends).length = n.toNat := by simp
      rw [hlen2] at hok
      obtain ⟨hlive, -, -, -, -, -⟩ := addNew_live s s' h n.toNat (photoSrc s.ref hits (hits.mapIdx vel))
        (hits.map (·.x)) rfl (by simpa using hlen) (fun _ => hroom) (by
          intro f _
          cases f <;> simp [photoSrc, Src.Fits, hlen]) hok
      have hall : ∀ (k : ℕ) (p : Particle K),
          (srcParticles s.tracked n.toNat (photoSrc s.ref hits (hits.mapIdx vel)))[k]? = some p →
          p .nel = s.ref ∧ p .z = 0 ∧ p .tl = -1 ∧ ch.outside (p .x) (p .y) = false ∧
          ∃ q : Hit K, ch.hit ((ends k).1.1, (ends k).1.2, 0) ((ends k).2.1, (ends k).2.2, 0) = .ok q ∧
            p .x = q.x ∧ p .y = q.y ∧ (p .vx, p .vy, p .vz) = vel k q := by
        intro i p hp
        obtain ⟨hi, rfl⟩ := List.getElem?_eq_some_iff.mp hp
        have hi' : i < n.toNat := by simpa [srcParticles] using hi
        have ht : ∀ f, f ≠ Fld.tl → s.tracked f = true := fun f hf => tracked_main s f hf
        have hh : ch.hit ((ends i).1.1, (ends i).1.2, 0) ((ends i).2.1, (ends i).2.2, 0) = .ok (hits[i]'(by omega)) := by
          have := (List.forall₂_iff_get.mp hmap).2 i (by simpa using hi') (by omega)
          simpa using this
        rw [srcParticles_scalar _ _ (photoSrc s.ref hits (hits.mapIdx vel)) .nel s.ref (ht _ (by decide)) rfl i hi',
          srcParticles_scalar _ _ (photoSrc s.ref hits (hits.mapIdx vel)) .z 0 (ht _ (by decide)) rfl i hi',
          srcParticles_array _ _ (photoSrc s.ref hits (hits.mapIdx vel)) .vx _ (ht _ (by decide)) rfl i hi' (by simpa using hlen),
          srcParticles_array _ _ (photoSrc s.ref hits (hits.mapIdx vel)) .vy _ (ht _ (by decide)) rfl i hi' (by simpa using hlen),
          srcParticles_array _ _ (photoSrc s.ref hits (hits.mapIdx vel)) .vz _ (ht _ (by decide)) rfl i hi' (by simpa using hlen),
          srcParticles_array _ _ (photoSrc s.ref hits (hits.mapIdx vel)) .x _ (ht _ (by decide)) rfl i hi' (by simpa using hlen),
          srcParticles_array _ _ (photoSrc s.ref hits (hits.mapIdx vel)) .y _ (ht _ (by decide)) rfl i hi' (by simpa using hlen)]
        refine ⟨rfl, rfl, ?_, ?_, hits[i]'(by omega), hh, by simp, by simp, by simp⟩
        · cases htl : s.tracked .tl with
          | true => exact srcParticles_scalar _ _ (photoSrc s.ref hits (hits.mapIdx vel)) .tl _ htl rfl i hi'
          | false => exact srcParticles_untracked _ _ (photoSrc s.ref hits (hits.mapIdx vel)) .tl htl i hi'
        · simp only [List.getElem_map]
          exact hin i _ hh
      refine ⟨_, hlive, ?_, hall, ?_⟩
      · rw [srcParticles_length]; omega
      · rw [totalCharge_const _ s.ref (fun p hp => by
            obtain ⟨k, hk⟩ := List.getElem?_of_mem hp
            exact (hall k p hk).1), srcParticles_length]
        have : ((n.toNat : ℕ) : K) = ((n : ℤ) : K) := by
          rw [← Int.cast_natCast, Int.toNat_of_nonneg hst]
        rw [this]
        exact hbound
  · rw [if_neg hpos] at hok
    cases hok
    have h0 : n = 0 := by omega
    refine ⟨[], by simp, by simp [h0], by simp, ?_⟩
    rw [h0] at hbound
    simpa [totalCharge] using hbound

/-- **C45**, photoemission per segment: the rounded number of macroparticles of reference size is appended, inside
the chamber, each one on the line of the segment its random number selects, shifted by the configured distance. -/
theorem C45_photoemission_per_segment (outside : K → K → Bool) (segs : List (PhSeg K)) (cdf : List K)
    (vel : ℕ → PhSeg K → K × K × K) (kc : K) (mean : Option K) (lam dt u : K) (seg r0 : ℕ → K)
    (rounds : List (ℕ → K)) (s s' : MPs K) (h : s.WF) (hroom : s.nmp < s.cap) (hr : 0 < s.ref)
    (hq : 0 ≤ kc * (mean.getD lam) * dt) (hu : 0 ≤ u)
    (hok : photoSegGenerate outside segs cdf vel kc mean lam dt u seg r0 rounds s = .ok s') :
    ∃ new : List (Particle K), s'.live = s.live ++ new ∧
      (new.length : ℤ) = roundedCount (kc * (mean.getD lam) * dt / s.ref) u ∧
      (∀ p ∈ new, p .nel = s.ref ∧ p .z = 0 ∧ p .tl = -1 ∧ outside (p .x) (p .y) = false ∧
        ∃ (j : ℕ) (g : PhSeg K) (r : K) (k : ℕ), j < new.length ∧ segs[cdfBin cdf (seg j)]? = some g ∧
          p .x = g.x0 + r * g.dx ∧ p .y = g.y0 + r * g.dy ∧ (p .vx, p .vy, p .vz) = vel k g) ∧
      |totalCharge new - kc * (mean.getD lam) * dt| < s.ref := by
  have hst := roundedCount_nonneg (kc * (mean.getD lam) * dt / s.ref) u (div_nonneg hq hr.le)
  have hbound := roundedCount_charge (kc * (mean.getD lam) * dt) s.ref u hr hu
  unfold photoSegGenerate at hok
  dsimp only at hok
  rw [photoCount_eq _ _ _ _ _ _ (div_nonneg hq hr.le)] at hok
  generalize hn : roundedCount (kc * (mean.getD lam) * dt / s.ref) u = n at hok hst hbound
  by_cases hpos : 0 < n
  · rw [if_pos hpos] at hok
    split at hok
    · cases hok
    · next gs hgs =>
      split at hok
      · cases hok
      · next pts hp =>
        have hlen : pts.length = n.toNat := by
          unfold phPoints at hp
          rw [rejectLoop_length _ _ _ _ _ hp]; simp
        rw [hlen] at hok
        have hmap := mapM_ok _ _ _ hgs
        have hglen : gs.length = n.toNat := by
          rw [← hmap.length_eq]; simp
        have hin := rejectLoop_inside _ _ _ _ _ hp
        have hgs2 : ∀ g ∈ gs, ∃ j < n.toNat, segs[cdfBin cdf (seg j)]? = some g := by
          intro g hg
          obtain ⟨i, hi, rfl⟩ := List.getElem_of_mem hg
          have h2 := (List.forall₂_iff_get.mp hmap).2 i (by rw [hmap.length_eq]; exact hi) hi
          have hmem := List.get_mem (((List.range n.toNat).map (fun i => cdfBin cdf (seg i))).insertionSort (· ≤ ·))
            ⟨i, by rw [hmap.length_eq]; exact hi⟩
          rw [List.mem_insertionSort] at hmem
          obtain ⟨j, hj, hjb⟩ := List.mem_map.1 hmem
          refine ⟨j, by simpa using hj, ?_⟩
          rw [hjb]
          simp only [List.get_eq_getElem] at h2 ⊢
          split at h2
          · next g' hg' => rw [hg']; cases h2; rfl
          · cases h2
        have hline := rejectLoop_pred outside
          (fun (g : PhSeg K) (r _ : K) => (g.x0 + r * g.dx, g.y0 + r * g.dy))
          (fun p => ∃ r, p.2.1 = p.1.x0 + r * p.1.dx ∧ p.2.2 = p.1.y0 + r * p.1.dy)
          (rounds.map (fun r => (r, r))) (fun r _ i c => ⟨_, rfl, rfl⟩) _ _ (by
            intro p hp
            obtain ⟨i, -, rfl⟩ := List.mem_map.1 hp
            exact ⟨_, rfl, rfl⟩) hp
        have hseg := rejectLoop_fst outside
          (fun (g : PhSeg K) (r _ : K) => (g.x0 + r * g.dx, g.y0 + r * g.dy)) (rounds.map (fun r => (r, r))) _ _ hp
        have hpm : ∀ p ∈ pts, p.1 ∈ gs := by
          intro p hpp
          have : p.1 ∈ pts.map (·.1) := List.mem_map_of_mem hpp
          rw [hseg, List.map_map] at this
          obtain ⟨i, hi, hie⟩ := List.mem_map.1 this
          rw [← hie]
          have hi' : i < gs.length := by rw [hglen]; simpa using hi
          simp only [Function.comp_apply]
          rw [List.getD_eq_getElem _ _ hi']
          exact List.getElem_mem hi'
        obtain ⟨hlive, -, -, -, -, -⟩ := addNew_live s s' h n.toNat _ ((pts.map (fun p => (⟨p.2.1, p.2.2, 0, p.1.nx,
          p.1.ny, 0⟩ : Hit K))).map (·.x)) rfl (by simpa using hlen) (fun _ => hroom) (by
            intro f _
            cases f <;> simp [photoSrc, Src.Fits, hlen]) hok
        have hall : ∀ p ∈ srcParticles s.tracked n.toNat (fun f => photoSrc s.ref
            (pts.map (fun p => (⟨p.2.1, p.2.2, 0, p.1.nx, p.1.ny, 0⟩ : Hit K))) (pts.mapIdx (fun i p => vel i p.1)) f),
            p .nel = s.ref ∧ p .z = 0 ∧ p .tl = -1 ∧ outside (p .x) (p .y) = false ∧
            ∃ (j : ℕ) (g : PhSeg K) (r : K) (k : ℕ), j < n.toNat ∧ segs[cdfBin cdf (seg j)]? = some g ∧
              p .x = g.x0 + r * g.dx ∧ p .y = g.y0 + r * g.dy ∧ (p .vx, p .vy, p .vz) = vel k g := by
          intro p hp
          obtain ⟨i, hi, rfl⟩ := List.getElem_of_mem hp
          have hi' : i < n.toNat := by simpa [srcParticles] using hi
          have ht : ∀ f, f ≠ Fld.tl → s.tracked f = true := fun f hf => tracked_main s f hf
          rw [srcParticles_scalar _ _ (photoSrc s.ref (pts.map (fun p => (⟨p.2.1, p.2.2, 0, p.1.nx, p.1.ny, 0⟩ : Hit K))) (pts.mapIdx (fun i p => vel i p.1))) .nel s.ref (ht _ (by decide)) rfl i hi',
            srcParticles_scalar _ _ (photoSrc s.ref (pts.map (fun p => (⟨p.2.1, p.2.2, 0, p.1.nx, p.1.ny, 0⟩ : Hit K))) (pts.mapIdx (fun i p => vel i p.1))) .z 0 (ht _ (by decide)) rfl i hi',
            srcParticles_array _ _ (photoSrc s.ref (pts.map (fun p => (⟨p.2.1, p.2.2, 0, p.1.nx, p.1.ny, 0⟩ : Hit K))) (pts.mapIdx (fun i p => vel i p.1))) .vx _ (ht _ (by decide)) rfl i hi' (by simpa using hlen),
            srcParticles_array _ _ (photoSrc s.ref (pts.map (fun p => (⟨p.2.1, p.2.2, 0, p.1.nx, p.1.ny, 0⟩ : Hit K))) (pts.mapIdx (fun i p => vel i p.1))) .vy _ (ht _ (by decide)) rfl i hi' (by simpa using hlen),
            srcParticles_array _ _ (photoSrc s.ref (pts.map (fun p => (⟨p.2.1, p.2.2, 0, p.1.nx, p.1.ny, 0⟩ : Hit K))) (pts.mapIdx (fun i p => vel i p.1))) .vz _ (ht _ (by decide)) rfl i hi' (by simpa using hlen),
            srcParticles_array _ _ (photoSrc s.ref (pts.map (fun p => (⟨p.2.1, p.2.2, 0, p.1.nx, p.1.ny, 0⟩ : Hit K))) (pts.mapIdx (fun i p => vel i p.1))) .x _ (ht _ (by decide)) rfl i hi' (by simpa using hlen),
            srcParticles_array _ _ (photoSrc s.ref (pts.map (fun p => (⟨p.2.1, p.2.2, 0, p.1.nx, p.1.ny, 0⟩ : Hit K))) (pts.mapIdx (fun i p => vel i p.1))) .y _ (ht _ (by decide)) rfl i hi' (by simpa using hlen)]
          have hmem : pts[i]'(by omega) ∈ pts := List.getElem_mem _
          obtain ⟨r, hr1, hr2⟩ := hline _ hmem
          obtain ⟨j, hj, hjs⟩ := hgs2 _ (hpm _ hmem)
          refine ⟨rfl, rfl, ?_, ?_, j, _, r, i, hj, hjs, ?_, ?_, ?_⟩
          · cases htl : s.tracked .tl with
            | true => exact srcParticles_scalar _ _ (photoSrc s.ref (pts.map (fun p => (⟨p.2.1, p.2.2, 0, p.1.nx, p.1.ny, 0⟩ : Hit K))) (pts.mapIdx (fun i p => vel i p.1))) .tl _ htl rfl i hi'
            | false => exact srcParticles_untracked _ _ (photoSrc s.ref (pts.map (fun p => (⟨p.2.1, p.2.2, 0, p.1.nx, p.1.ny, 0⟩ : Hit K))) (pts.mapIdx (fun i p => vel i p.1))) .tl htl i hi'
          · simp only [List.getElem_map]
            exact hin _ hmem
          · simpa only [List.getElem_map] using hr1
          · simpa only [List.getElem_map] using hr2
          · simp
        refine ⟨_, hlive, ?_, ?_, ?_⟩
        · rw [srcParticles_length]; omega
        · simpa only [srcParticles_length] using hall
        · rw [totalCharge_const _ s.ref (fun p hp => (hall p hp).1), srcParticles_length]
          have : ((n.toNat : ℕ) : K) = ((n : ℤ) : K) := by
            rw [← Int.cast_natCast, Int.toNat_of_nonneg hst]
          rw [this]
          exact hbound
  · rw [if_neg hpos] at hok
    cases hok
    have h0 : n = 0 := by omega
    refine ⟨[], by simp, by simp [h0], by simp, ?_⟩
    rw [h0] at hbound
    simpa [totalCharge] using hbound

end

/-- draws for the gas example -/
def exGasDraws : GasDraws ℚ :=
  ⟨1 / 4, fun i => if i = 0 then 0 else 1, fun i => (i : ℚ) / 4, fun _ => 1 / 2, [(fun _ => 1 / 2, fun _ => 1 / 3)],
    1 / 2, 1 / 4, 1⟩

/-- one uniform and one Gaussian electron, the second one redrawn once; 5/4 requested -/
example : ∃ s', gasGenerate (fun x y => decide (1 < x ^ 2 + y ^ 2)) (1 / 2) 2 2 (1 / 2) 2 1 5 1 1 0 0 exGasDraws
    { toy with ref := 3 / 2 } = .ok s' ∧ s'.nmp = toy.nmp + 2 ∧
    s'.live.map (fun p : Particle ℚ => p .nel) = toy.live.map (fun p : Particle ℚ => p .nel) ++ [3 / 2, 3 / 2] :=
  exists_ok (by decide +kernel)

/-- a chamber that is the half plane `x < 1` -/
def exHalf : Chamber ℚ where
  outside := fun x _ => decide (1 ≤ x)
  hit := fun a b => if 1 ≤ b.1 then .ok ⟨1 / 2, (a.2.1 + b.2.1) / 2, 0, -1, 0, 3⟩ else .error .valueError

example : ∃ s', photoGenerate exHalf (fun _ q => (q.nx, q.ny, 0)) (fun i => ((0, 0), (2, (i : ℚ)))) 1 none 5 1 (1 / 4)
    { toy with ref := 5 / 2 } = .ok s' ∧ s'.nmp = toy.nmp + 2 ∧
    (s'.live.drop toy.nmp).map (fun p : Particle ℚ => (p .x, p .y, p .vx)) = [(1 / 2, 0, -1), (1 / 2, 1 / 2, -1)] :=
  exists_ok (by decide +kernel)

example : ∀ (k : ℕ) (q : Hit ℚ), exHalf.hit (0, 0, 0) (2, (k : ℚ), 0) = .ok q → exHalf.outside q.x q.y = false := by
  intro k q h
  have : exHalf.hit (0, 0, 0) (2, (k : ℚ), 0) = .ok ⟨1 / 2, (0 + (k : ℚ)) / 2, 0, -1, 0, 3⟩ := by
    simp only [exHalf]; rw [if_pos (by norm_num)]
  rw [this] at h
  cases h
  have : ¬ (1 : ℚ) ≤ 1 / 2 := by norm_num
  simp [exHalf]
  norm_num

example : ∃ s', photoSegGenerate (fun x _ => decide (1 ≤ x)) [⟨0, 0, 1, 0, 0, 1⟩, ⟨1 / 2, 0, 0, 1, -1, 0⟩] [1 / 3, 1]
    (fun _ g => (g.nx, g.ny, 0)) 1 none 5 1 (1 / 4) (fun i => 1 / 2 - (i : ℚ) / 4) (fun _ => 1) [fun _ => 1 / 2]
    { toy with ref := 5 / 2 } = .ok s' ∧
    (s'.live.drop toy.nmp).map (fun p : Particle ℚ => (p .x, p .y, p .vx)) = [(1 / 2, 0, 0), (1 / 2, 1, -1)] :=
  exists_ok (by decide +kernel)

/-- **C67.** Stochastic rounding is unbiased: averaged over the uniform random number, the number of
macroparticles created by any of the sources (uniform distributions, gas ionisation, photoemission, cross
ionisation) is exactly the requested number. -/
theorem C67_rounding_unbiased (x : ℝ) : ∫ u in (0 : ℝ)..1, ((stochRound x u : ℤ) : ℝ) = x := by
  have hf0 := Int.fract_nonneg x
  have hf1 := (Int.fract_lt_one x).le
  have h1 : ∫ u in (0 : ℝ)..(Int.fract x), ((stochRound x u : ℤ) : ℝ) = Int.fract x * ((⌊x⌋ : ℝ) + 1) := by
    have : ∫ u in (0 : ℝ)..(Int.fract x), ((stochRound x u : ℤ) : ℝ) = ∫ u in (0 : ℝ)..(Int.fract x), ((⌊x⌋ : ℝ) + 1) := by
      rw [intervalIntegral.integral_of_le hf0, intervalIntegral.integral_of_le hf0,
        MeasureTheory.integral_Ioc_eq_integral_Ioo, MeasureTheory.integral_Ioc_eq_integral_Ioo]
      apply MeasureTheory.setIntegral_congr_fun measurableSet_Ioo
      intro u hu
      have hu2 : u < Int.fract x := hu.2
      simp only [stochRound_eq, roundedCount]
      rw [if_pos hu2]
      push_cast
      rfl
    rw [this, intervalIntegral.integral_const]
    simp
  have h2 : ∫ u in (Int.fract x)..1, ((stochRound x u : ℤ) : ℝ) = (1 - Int.fract x) * (⌊x⌋ : ℝ) := by
    have : ∫ u in (Int.fract x)..1, ((stochRound x u : ℤ) : ℝ) = ∫ u in (Int.fract x)..1, (⌊x⌋ : ℝ) := by
      rw [intervalIntegral.integral_of_le hf1, intervalIntegral.integral_of_le hf1]
      apply MeasureTheory.setIntegral_congr_fun measurableSet_Ioc
      intro u hu
      have hu2 : ¬ u < Int.fract x := not_lt.mpr hu.1.le
      simp only [stochRound_eq, roundedCount]
      rw [if_neg hu2]
    rw [this, intervalIntegral.integral_const]
    simp
  have hi : ∀ a b : ℝ, IntervalIntegrable (fun u => ((stochRound x u : ℤ) : ℝ)) MeasureTheory.volume a b := by
    intro a b
    have : (fun u : ℝ => ((stochRound x u : ℤ) : ℝ))
        = fun u => (⌊x⌋ : ℝ) + Set.indicator (Set.Iio (Int.fract x)) (fun _ => (1 : ℝ)) u := by
      funext u
      rw [stochRound_eq, roundedCount, Set.indicator_apply]
      by_cases hu : u < Int.fract x
      · rw [if_pos hu, if_pos (Set.mem_Iio.mpr hu)]; push_cast; rfl
      · rw [if_neg hu, if_neg (fun h => hu (Set.mem_Iio.mp h))]; simp
    rw [this]
    apply IntervalIntegrable.add intervalIntegrable_const
    rw [intervalIntegrable_iff]
    apply MeasureTheory.Integrable.indicator _ measurableSet_Iio
    exact (intervalIntegrable_iff.mp (intervalIntegrable_const (c := (1 : ℝ))))
  rw [← intervalIntegral.integral_add_adjacent_intervals (hi 0 (Int.fract x)) (hi (Int.fract x) 1), h1, h2]
  have := Int.floor_add_fract x
  nlinarith

/-- **C67**, photoemission: its count is computed with truncation instead of floor, which is the same for
non-negative requests. -/
theorem C67_photo_rounding_unbiased (kc lam dt ref : ℝ) (mean : Option ℝ) (h : 0 ≤ kc * (mean.getD lam) * dt / ref) :
    ∫ u in (0 : ℝ)..1, ((photoCount kc mean lam dt ref u : ℤ) : ℝ) = kc * (mean.getD lam) * dt / ref := by
  rw [← C67_rounding_unbiased (kc * (mean.getD lam) * dt / ref)]
  congr 1
  funext u
  rw [photoCount_eq _ _ _ _ _ _ h, stochRound_eq]

example : stochRound (7 / 3 : ℚ) (1 / 4) = 3 ∧ stochRound (7 / 3 : ℚ) (1 / 3) = 2 := by decide +kernel

end PyECLOUD
