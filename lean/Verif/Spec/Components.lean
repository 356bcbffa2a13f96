import Verif.Model.Components

/-!
# The table of surface models

Which settings a user has to give for which surface, as in the reference manual.
-/

namespace PyECLOUD

/-- The surface that belongs to the settings `c`; `polyg`: the chamber is a polygon. -/
inductive Chosen (polyg : Bool) (c : SurfSet) : Surf → Prop where
  | absorber : c.switch = .str "perfect_absorber" → Chosen polyg c .absorber
  | ecloud (e0 s : ℝ) : (c.switch = .int 0 ∨ c.switch = .str "ECLOUD") → (c.e0 = some e0 ∨ c.e0 = none ∧ e0 = 150) →
      (c.s = some s ∨ c.s = none ∧ s = 1.35) → Chosen polyg c (.ecloud ⟨c.eMax, c.delMax, c.r0, e0, s, c.scale, c.shift⟩)
  | accLow (e0 : ℝ) : (c.switch = .int 1 ∨ c.switch = .str "ACC_LOW") → (c.e0 = some e0 ∨ c.e0 = none ∧ e0 = 150) → c.s = none →
      Chosen polyg c (.accLow ⟨c.eMax, c.delMax, c.r0, e0, 1.35, true, true⟩)
  | nonUnif (e0 : ℝ) : c.switch = .str "ECLOUD_nunif" → polyg = true → (c.e0 = some e0 ∨ c.e0 = none ∧ e0 = 150) → c.s = none →
      Chosen polyg c (.nonUnif ⟨c.eMax, c.delMax, c.r0, e0, 1.35, true, true⟩)
  | charging (e0 : ℝ) : c.switch = .str "ECLOUD_nunif_charging" → polyg = true → (c.e0 = some e0 ∨ c.e0 = none ∧ e0 = 150) →
      c.s = none → Chosen polyg c (.charging ⟨c.eMax, c.delMax, c.r0, e0, 1.35, true, true⟩)
  | cosLow (e0 : ℝ) : c.switch = .str "cos_low_ene" → (c.e0 = some e0 ∨ c.e0 = none ∧ e0 = 30) → c.s = none →
      Chosen polyg c (.cosLow ⟨c.eMax, c.delMax, c.r0, e0, 1.35, true, true⟩)
  | flatLow : c.switch = .str "flat_low_ene" → c.e0 = none → c.s = none →
      Chosen polyg c (.flatLow ⟨c.eMax, c.delMax, c.r0, 0, 1.35, true, true⟩)
  | table : c.switch = .str "from_file" → c.e0 = none → c.s = none → Chosen polyg c (.table c.scale c.shift)
  | furman : c.switch = .str "furman_pivi" → c.e0 = none → c.s = none → Chosen polyg c (.furman c.scale c.shift)

end PyECLOUD
