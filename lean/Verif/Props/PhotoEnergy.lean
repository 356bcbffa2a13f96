import Verif.Model.PhotoEnergy
import Verif.Props.Emission

/-!
# Lorentz and lognormal photoelectron energies (C110)
-/

namespace PyECLOUD

open Real

theorem cauchyCdf_mem (x loc scale : ℝ) : 0 < cauchyCdf x loc scale ∧ cauchyCdf x loc scale < 1 := by
  have h1 := arctan_lt_pi_div_two ((x - loc) / scale)
  have h2 := neg_pi_div_two_lt_arctan ((x - loc) / scale)
  have hp := pi_pos
  have e : cauchyCdf x loc scale = (π / 2 + arctan ((x - loc) / scale)) / π := by
    unfold cauchyCdf
    field_simp
  rw [e]
  exact ⟨by apply div_pos <;> linarith, by rw [div_lt_one hp]; linarith⟩

theorem cauchyPpf_le_iff (q loc scale e : ℝ) (hs : 0 < scale) (h0 : 0 < q) (h1 : q < 1) :
    cauchyPpf q loc scale ≤ e ↔ q ≤ cauchyCdf e loc scale := by
  have hp := pi_pos
  have ha : -(π / 2) < π * q - π / 2 := by nlinarith
  have hb : π * q - π / 2 < π / 2 := by nlinarith
  have hat : arctan (tan (π * q - π / 2)) = π * q - π / 2 := arctan_tan ha hb
  unfold cauchyPpf cauchyCdf
  have k1 : loc + scale * tan (π * q - π / 2) ≤ e ↔ tan (π * q - π / 2) ≤ (e - loc) / scale := by
    rw [le_div_iff₀ hs]
    constructor <;> intro h <;> nlinarith
  rw [k1, ← arctan_le_arctan_iff, hat]
  have k2 : 1 / 2 + 1 / π * arctan ((e - loc) / scale) = (π / 2 + arctan ((e - loc) / scale)) / π := by
    field_simp
  rw [k2, le_div_iff₀ hp]
  constructor <;> intro h <;> nlinarith

/-- **C110, lorentz.** For a positive width there is one energy per electron and none is negative. An energy is at
most `E` exactly if its uniform number is at most `(F(E) - F(0)) / (1 - F(0))`, where
`F(x) = 1/2 + arctan((x - mean)/sigma)/π`: the energies are the Lorentz distribution around the mean restricted to
energies that are not negative. -/
theorem C110_lorentz (sigma mean : ℝ) (hs : 0 < sigma) (n : ℕ) (u : ℕ → ℝ) (hu : ∀ i, 0 ≤ u i ∧ u i < 1) :
    (lorentzEnergies sigma mean n u).length = n ∧ (∀ e ∈ lorentzEnergies sigma mean n u, 0 ≤ e) ∧
    ∀ (i : ℕ) (e : ℝ), (lorentzEnergies sigma mean n u)[i]? = some e → ∀ E : ℝ, 0 ≤ E →
      (e ≤ E ↔ u i ≤ (arctan ((E - mean) / sigma) - arctan (-mean / sigma)) / (π / 2 - arctan (-mean / sigma))) := by
  have hp := pi_pos
  obtain ⟨c0, c1⟩ := cauchyCdf_mem 0 mean sigma
  have hq : ∀ i, cauchyCdf 0 mean sigma ≤ u i * (1 - cauchyCdf 0 mean sigma) + cauchyCdf 0 mean sigma ∧
      u i * (1 - cauchyCdf 0 mean sigma) + cauchyCdf 0 mean sigma < 1 := by
    intro i
    obtain ⟨a, b⟩ := hu i
    constructor <;> nlinarith
  refine ⟨by simp [lorentzEnergies], ?_, ?_⟩
  · intro e he
    simp only [lorentzEnergies, List.mem_map] at he
    obtain ⟨i, -, rfl⟩ := he
    obtain ⟨a, b⟩ := hq i
    by_contra hneg
    have hneg := not_le.1 hneg
    set q := u i * (1 - cauchyCdf 0 mean sigma) + cauchyCdf 0 mean sigma with hqd
    have h1 : q ≤ cauchyCdf (cauchyPpf q mean sigma) mean sigma :=
      (cauchyPpf_le_iff q mean sigma _ hs (by linarith) b).1 le_rfl
    have h2 : cauchyCdf (cauchyPpf q mean sigma) mean sigma < cauchyCdf 0 mean sigma := by
      unfold cauchyCdf
      have : arctan ((cauchyPpf q mean sigma - mean) / sigma) < arctan ((0 - mean) / sigma) := by
        rw [arctan_lt_arctan_iff]
        gcongr
      have hpi : 0 < 1 / π := by positivity
      nlinarith
    linarith
  · intro i e he E hE
    simp only [lorentzEnergies, List.getElem?_map, Option.map_eq_some_iff] at he
    obtain ⟨k, hk, rfl⟩ := he
    obtain rfl : k = i := by
      have := List.getElem?_eq_some_iff.1 hk
      obtain ⟨h1, h2⟩ := this
      simpa using h2.symm
    obtain ⟨a, b⟩ := hq k
    rw [cauchyPpf_le_iff _ _ _ _ hs (by linarith) b]
    have hd : 0 < π / 2 - arctan (-mean / sigma) := by
      have := arctan_lt_pi_div_two (-mean / sigma)
      linarith
    rw [le_div_iff₀ hd]
    have e0 : cauchyCdf 0 mean sigma = 1 / 2 + arctan (-mean / sigma) / π := by
      unfold cauchyCdf
      rw [zero_sub]
      ring
    have e1 : cauchyCdf E mean sigma = 1 / 2 + arctan ((E - mean) / sigma) / π := by
      unfold cauchyCdf
      ring
    rw [e0, e1]
    have e2 : u k * (1 - (1 / 2 + arctan (-mean / sigma) / π)) + (1 / 2 + arctan (-mean / sigma) / π) =
        1 / 2 + (u k * (π / 2 - arctan (-mean / sigma)) + arctan (-mean / sigma)) / π := by
      field_simp
      ring
    rw [e2]
    constructor
    · intro h
      have h := le_of_add_le_add_left h
      rw [div_le_div_iff_of_pos_right hp] at h
      linarith
    · intro h
      gcongr
      linarith

/-- Half of the electrons of a Lorentz distribution around energy 0 have at most the width as energy. -/
example : (lorentzEnergies 2 0 1 (fun _ => 1 / 2)) = [2] := by
  have h : lorentzEnergies 2 0 1 (fun _ => 1 / 2) = [cauchyPpf (1 / 2 * (1 - cauchyCdf 0 0 2) + cauchyCdf 0 0 2) 0 2] := rfl
  rw [h]
  have : cauchyCdf 0 0 2 = 1 / 2 := by simp [cauchyCdf]
  rw [this]
  unfold cauchyPpf
  have : π * (1 / 2 * (1 - 1 / 2) + 1 / 2) - π / 2 = π / 4 := by ring
  rw [this, tan_pi_div_four]
  norm_num

/-- **C110, lognormal.** One energy per electron, the exponential of a normal number, always positive. -/
theorem C110_lognormal (sigma mean : ℝ) (n : ℕ) (g : ℕ → ℝ) :
    (lognormalEnergies sigma mean n g).length = n ∧ (∀ e ∈ lognormalEnergies sigma mean n g, 0 < e) ∧
    ∀ (i : ℕ) (e : ℝ), (lognormalEnergies sigma mean n g)[i]? = some e → log e = mean + sigma * g i := by
  refine ⟨by simp [lognormalEnergies], ?_, ?_⟩
  · intro e he
    simp only [lognormalEnergies, List.mem_map] at he
    obtain ⟨i, -, rfl⟩ := he
    exact exp_pos _
  · intro i e he
    simp only [lognormalEnergies, List.getElem?_map, Option.map_eq_some_iff] at he
    obtain ⟨k, hk, rfl⟩ := he
    obtain ⟨h1, h2⟩ := List.getElem?_eq_some_iff.1 hk
    obtain rfl : i = k := by simpa using h2
    exact log_exp _

example : lognormalEnergies 2 0 2 (fun _ => 0) = [1, 1] := by simp [lognormalEnergies, List.range_succ]

/-- **C110, choice.** Each of the five names selects its distribution; every other name is refused. -/
theorem C110_choice (name : String) :
    energyDistOf name = if name ∈ ["lognormal", "gaussian", "rect", "mono", "lorentz"] then
      .ok (if name = "lognormal" then .lognormal else if name = "gaussian" then .gaussian
        else if name = "rect" then .rect else if name = "mono" then .mono else .lorentz)
      else .error .valueError := by
  unfold energyDistOf
  simp only [List.mem_cons, List.not_mem_nil, or_false]
  by_cases h1 : name = "lognormal"
  · simp [h1]
  by_cases h2 : name = "gaussian"
  · simp [h2]
  by_cases h3 : name = "rect"
  · simp [h3]
  by_cases h4 : name = "mono"
  · simp [h4]
  by_cases h5 : name = "lorentz"
  · simp [h5]
  simp [h1, h2, h3, h4, h5]

/-- **C110, signs.** Whatever distribution is chosen, with a positive width (and a width of at most twice the mean for
the rectangular one, and a mean that is not negative for the single energy) a call for `n` electrons gives `n`
energies, none negative. Missing: wider rectangular distributions, see `C110_negative_violated`. -/
theorem C110_energies_partial (d : EnergyDist) (sigma mean : ℝ) (hs : 0 < sigma)
    (hr : d = .rect → sigma ≤ 2 * mean) (hm : d = .mono → 0 ≤ mean) (n : ℕ) (u g : ℕ → ℝ) (rounds : List (ℕ → ℝ))
    (hu : ∀ i, 0 ≤ u i ∧ u i < 1) (r : List ℝ) (h : d.draw sigma mean n u g rounds = .ok r) :
    r.length = n ∧ ∀ e ∈ r, 0 ≤ e := by
  cases d with
  | lognormal =>
    cases h
    obtain ⟨a, b, -⟩ := C110_lognormal sigma mean n g
    exact ⟨a, fun e he => (b e he).le⟩
  | gaussian =>
    obtain ⟨a, b, -⟩ := C110_gaussian sigma mean n g rounds r h
    exact ⟨a, b⟩
  | rect =>
    cases h
    obtain ⟨a, b, -⟩ := C110_rectangular_partial sigma mean hs.le n u (fun i => ⟨(hu i).1, (hu i).2.le⟩)
    exact ⟨a, fun e he => (b e he).2 (hr rfl)⟩
  | mono =>
    cases h
    obtain ⟨a, b⟩ := C110_monoenergetic mean n
    exact ⟨a, fun e he => by rw [b e he]; exact hm rfl⟩
  | lorentz =>
    cases h
    obtain ⟨a, b, -⟩ := C110_lorentz sigma mean hs n u hu
    exact ⟨a, b⟩

example : ∃ r, EnergyDist.rect.draw 4 5 3 (fun _ => 0) (fun _ => 0) [] = .ok r ∧ (4 : ℝ) ≤ 2 * 5 :=
  ⟨_, rfl, by norm_num⟩

end PyECLOUD
