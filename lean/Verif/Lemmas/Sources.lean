import Verif.Lemmas.MPSources
import Verif.Lemmas.Impact
import Verif.Spec.Rounding
import Verif.Model.Sources
import Mathlib.Data.List.GetD

/-!
# Lemmas about stochastic rounding and the primary sources
-/

namespace PyECLOUD

variable {K : Type} [Field K] [LinearOrder K]

section Floor
variable [FloorRing K]

theorem photoCount_eq (kc : K) (mean : Option K) (lam dt ref u : K) (h : 0 ≤ kc * (mean.getD lam) * dt / ref) :
    photoCount kc mean lam dt ref u = roundedCount (kc * (mean.getD lam) * dt / ref) u := by
  unfold photoCount
  dsimp only
  rw [← stochRound_eq]
  unfold stochRound truncZ
  rw [if_pos h]

variable [IsStrictOrderedRing K]

theorem roundedCount_nonneg (x u : K) (h : 0 ≤ x) : 0 ≤ roundedCount x u := by
  have := Int.floor_nonneg.mpr h
  unfold roundedCount
  split <;> omega

/-- the rounded charge is less than one reference size off the request -/
theorem roundedCount_charge (q ref u : K) (hr : 0 < ref) (hu : 0 ≤ u) :
    |((roundedCount (q / ref) u : ℤ) : K) * ref - q| < ref := by
  have e : q = q / ref * ref := by field_simp
  have h1 := Int.floor_le (q / ref)
  have h2 := Int.lt_floor_add_one (q / ref)
  have h3 : |((roundedCount (q / ref) u : ℤ) : K) - q / ref| < 1 := by
    unfold roundedCount
    split
    · next hlt =>
      unfold Int.fract at hlt
      push_cast; rw [abs_lt]; constructor <;> linarith
    · push_cast; rw [abs_lt]; constructor <;> linarith
  have e2 : ((roundedCount (q / ref) u : ℤ) : K) * ref - q =
      (((roundedCount (q / ref) u : ℤ) : K) - q / ref) * ref := by
    rw [sub_mul, ← e]
  rw [e2, abs_mul, abs_of_pos hr]
  nlinarith

end Floor

set_option linter.unusedSectionVars false

/-- everything a successful `addNew` does -/
theorem addNew_live [FloorRing K] (s s' : MPs K) (h : s.WF) (n : ℕ) (src : Fld → Src K) (l : List K)
    (hx : src .x = .array l) (hl : l.length = n) (h1 : n = 1 → s.nmp < s.cap)
    (hs : ∀ f, s.tracked f = true → (src f).Fits n) (hok : s.addNew n src = .ok s') :
    s'.live = s.live ++ srcParticles s.tracked n src ∧ s'.WF ∧ s'.cap = s.cap ∧ s.nmp + n ≤ s.cap ∧
      s'.ref = s.ref ∧ s'.lifetime = s.lifetime := by
  have hwf := addNew_wf s s' h n src l hx hl h1 hok
  have hn := (addNew_sameSizes s s' n src hok).2
  have hfit := hwf.1.fits
  rw [hwf.2, hn] at hfit
  obtain ⟨s2, e2, l2, -, -⟩ := addNew_ok s h n src hfit hs
  have e3 := e2
  rw [hok] at e2
  cases e2
  refine ⟨l2, hwf.1, hwf.2, hfit, ?_, ?_⟩ <;>
  · unfold MPs.addNew at hok
    split at hok
    · cases hok
    · cases hok; rfl

/-- charge of a block of equal macroparticles -/
theorem totalCharge_const (l : List (Particle K)) (v : K) (h : ∀ p ∈ l, p .nel = v) :
    totalCharge l = (l.length : K) * v := by
  unfold totalCharge
  have : l.map (fun p => p .nel) = List.replicate l.length v := by
    rw [List.eq_replicate_iff]
    refine ⟨by simp, ?_⟩
    intro b hb
    obtain ⟨p, hp, rfl⟩ := List.mem_map.1 hb
    exact h p hp
  rw [this]; simp

theorem srcParticles_length (tr : Fld → Bool) (n : ℕ) (src : Fld → Src K) : (srcParticles tr n src).length = n := by
  simp [srcParticles]

theorem srcParticles_get (tr : Fld → Bool) (n : ℕ) (src : Fld → Src K) (f : Fld) (i : ℕ) (hi : i < n) :
    ((srcParticles tr n src)[i]'(by simpa [srcParticles] using hi)) f
      = if tr f then ((src f).expand n).getD i 0 else -1 := by
  have : ((srcParticles tr n src)[i]'(by simpa [srcParticles] using hi))
      = fun f => if tr f then ((src f).expand n).getD i 0 else -1 := by
    unfold srcParticles
    rw [List.getElem_map]
    simp
  rw [this]

/-- value of a particle of a block in an array field -/
theorem srcParticles_array (tr : Fld → Bool) (n : ℕ) (src : Fld → Src K) (f : Fld) (l : List K) (ht : tr f = true)
    (hf : src f = .array l) (i : ℕ) (hi : i < n) (hl : l.length = n) :
    ((srcParticles tr n src)[i]'(by simpa [srcParticles] using hi)) f = l[i]'(by omega) := by
  rw [srcParticles_get _ _ _ _ _ hi, ht, hf, if_pos rfl, Src.expand]
  rw [List.getD_eq_getElem _ _ (by omega)]

/-- value of a particle of a block in a scalar field -/
theorem srcParticles_scalar (tr : Fld → Bool) (n : ℕ) (src : Fld → Src K) (f : Fld) (v : K) (ht : tr f = true)
    (hf : src f = .scalar v) (i : ℕ) (hi : i < n) :
    ((srcParticles tr n src)[i]'(by simpa [srcParticles] using hi)) f = v := by
  rw [srcParticles_get _ _ _ _ _ hi, ht, hf, if_pos rfl, Src.expand]
  rw [List.getD_eq_getElem _ _ (by simpa using hi)]
  simp

theorem srcParticles_untracked (tr : Fld → Bool) (n : ℕ) (src : Fld → Src K) (f : Fld) (ht : tr f = false)
    (i : ℕ) (hi : i < n) : ((srcParticles tr n src)[i]'(by simpa [srcParticles] using hi)) f = -1 := by
  rw [srcParticles_get _ _ _ _ _ hi, ht]; rfl

theorem tracked_main (s : MPs K) (f : Fld) (h : f ≠ .tl) : s.tracked f = true := by
  unfold MPs.tracked
  simp [h]

end PyECLOUD
