import Verif.Model.CrossIon
import Verif.Spec.Ionisation
import Verif.Lemmas.Sources
import Verif.Lemmas.Regen

/-!
# Lemmas about cross ionisation
-/

namespace PyECLOUD

set_option linter.unusedSectionVars false

variable {K : Type} [Field K] [LinearOrder K]

theorem npRepeat_mask (g : Particle K → K) (proj : List (Particle K)) (counts : List ℤ)
    (h : proj.length = counts.length) :
    npRepeat (maskSel (proj.map g) (counts.map (fun c => decide (0 < c))))
      ((maskSel counts (counts.map (fun c => decide (0 < c)))).map Int.toNat)
      = (perProjectile proj counts).map g := by
  induction proj generalizing counts with
  | nil => cases counts <;> simp_all [perProjectile, maskSel, npRepeat]
  | cons p proj ih =>
    cases counts with
    | nil => simp at h
    | cons c counts =>
      have h' : proj.length = counts.length := by simpa using h
      by_cases hc : 0 < c
      · simp only [List.map_cons, hc, decide_true, maskSel, npRepeat, perProjectile, List.zip_cons_cons,
          List.flatMap_cons, List.map_append, List.map_replicate]
        rw [ih counts h']
        rfl
      · have h0 : c.toNat = 0 := by omega
        simp only [List.map_cons, hc, decide_false, maskSel, perProjectile, List.zip_cons_cons,
          List.flatMap_cons, h0, List.replicate_zero, List.nil_append]
        rw [ih counts h']
        rfl

theorem npRepeat_const (v : K) (counts : List ℤ) :
    npRepeat (List.replicate (countTrue (counts.map (fun c => decide (0 < c)))) v)
      ((maskSel counts (counts.map (fun c => decide (0 < c)))).map Int.toNat)
      = List.replicate ((counts.map Int.toNat).sum) v := by
  induction counts with
  | nil => simp [countTrue, maskSel, npRepeat]
  | cons c counts ih =>
    by_cases hc : 0 < c
    · simp only [countTrue, List.map_cons, hc, decide_true, List.count_cons_self, List.replicate_succ, maskSel, npRepeat,
        List.sum_cons]
      unfold countTrue at ih
      rw [ih, List.replicate_append_replicate]
    · have h0 : c.toNat = 0 := by omega
      simp only [countTrue, List.map_cons, hc, decide_false, maskSel, List.sum_cons, h0, zero_add]
      unfold countTrue at ih
      rw [List.count_cons_of_ne (by decide)]
      exact ih

theorem sum_toNat (counts : List ℤ) (h : ∀ c ∈ counts, 0 ≤ c) : ((counts.map Int.toNat).sum : ℤ) = counts.sum := by
  induction counts with
  | nil => simp
  | cons c counts ih =>
    have := ih (fun d hd => h d (List.mem_cons_of_mem _ hd))
    have h0 := h c List.mem_cons_self
    simp only [List.map_cons, List.sum_cons, Nat.cast_add, this]
    omega

theorem perProjectile_length (proj : List (Particle K)) (counts : List ℤ) (hl : proj.length = counts.length) :
    (perProjectile proj counts).length = (counts.map Int.toNat).sum := by
  induction proj generalizing counts with
  | nil => cases counts <;> simp_all [perProjectile]
  | cons p proj ih =>
    cases counts with
    | nil => simp at hl
    | cons c counts =>
      have := ih counts (by simpa using hl)
      simp only [perProjectile] at this
      simp [perProjectile, this]

theorem perProjectile_nil_of_zero (proj : List (Particle K)) (counts : List ℤ) (hl : proj.length = counts.length)
    (h : ∀ c ∈ counts, 0 ≤ c) (h0 : counts.sum = 0) : perProjectile proj counts = [] := by
  apply List.eq_nil_of_length_eq_zero
  rw [perProjectile_length _ _ hl]
  have := sum_toNat counts h
  omega

theorem mem_perProjectile (proj : List (Particle K)) (counts : List ℤ) (p : Particle K)
    (h : p ∈ perProjectile proj counts) : p ∈ proj := by
  unfold perProjectile at h
  obtain ⟨q, hq, hp⟩ := List.mem_flatMap.1 h
  have := (List.mem_replicate.1 hp).2
  rw [this]
  exact (List.of_mem_zip (a := q.1) (b := q.2) hq).1

theorem sum_nonneg_int (counts : List ℤ) (h : ∀ c ∈ counts, 0 ≤ c) : 0 ≤ counts.sum := by
  rw [← sum_toNat counts h]; positivity

theorem xNew_batch (counts : List ℤ) (proj : List (Particle K)) (ref v0 : K) (rv : Fld → ℕ → K)
    (hl : proj.length = counts.length) (h : ∀ c ∈ counts, 0 ≤ c) :
    IsBatch proj counts ref (xNew counts proj ref v0 rv) := by
  have hs := sum_toNat counts h
  have hs2 : (counts.map Int.toNat).sum = counts.sum.toNat := by omega
  unfold xNew
  dsimp only
  by_cases hn : 0 < counts.sum
  · rw [if_pos hn]
    constructor
    · rfl
    · dsimp only; rw [npRepeat_const, hs2]
    · exact npRepeat_mask _ _ _ hl
    · exact npRepeat_mask _ _ _ hl
    · exact npRepeat_mask _ _ _ hl
    · simp
    · simp
    · simp
  · rw [if_neg hn]
    have h0 : counts.sum = 0 := by have := sum_nonneg_int counts h; omega
    have hp := perProjectile_nil_of_zero proj counts hl h h0
    constructor <;> simp [hp, h0]

section Floor
variable [FloorRing K]

theorem roundDec_near [IsStrictOrderedRing K] (d : ℕ) (x : K) : |roundDec d x - x| ≤ 1 / 2 / 10 ^ d := by
  unfold roundDec
  have h := roundHE_near (x * 10 ^ d)
  have hp : (0 : K) < 10 ^ d := by positivity
  have e : (roundHE (x * 10 ^ d) : K) / 10 ^ d - x = -((x * 10 ^ d - (roundHE (x * 10 ^ d) : K)) / 10 ^ d) := by
    field_simp
    ring
  rw [e, abs_neg, abs_div, abs_of_pos hp]
  gcongr

theorem roundDec_nonneg [IsStrictOrderedRing K] (d : ℕ) (x : K) (h : 0 ≤ x) : 0 ≤ roundDec d x := by
  unfold roundDec
  apply div_nonneg _ (by positivity)
  have : (0 : ℤ) ≤ roundHE (x * 10 ^ d) := by
    apply le_roundHE
    have : 0 ≤ x * 10 ^ d := by positivity
    push_cast
    linarith
  exact_mod_cast this

/-- `np.round` keeps numbers with at most `d` decimals -/
theorem roundDec_exact [IsStrictOrderedRing K] (d : ℕ) (m : ℤ) : roundDec d ((m : K) / 10 ^ d) = (m : K) / 10 ^ d := by
  unfold roundDec
  have hp : (0 : K) < 10 ^ d := by positivity
  have e : (m : K) / 10 ^ d * 10 ^ d = m := by field_simp
  rw [e]
  have : roundHE ((m : K)) = m := by
    apply le_antisymm
    · apply roundHE_le; linarith
    · apply le_roundHE; linarith
  rw [this]

theorem xCounts_length (dn : List K) (ref : K) (u : ℕ → K) : (xCounts dn ref u).length = dn.length := by
  simp [xCounts]

theorem xCounts_get (dn : List K) (ref : K) (u : ℕ → K) (i : ℕ) (q : K) (h : dn[i]? = some q) :
    (xCounts dn ref u)[i]? = some (roundedCount (q / ref) (u i)) := by
  simp [xCounts, h, stochRound_eq]

theorem xCounts_nonneg [IsStrictOrderedRing K] (dn : List K) (ref : K) (u : ℕ → K) (hr : 0 ≤ ref) (h : ∀ q ∈ dn, 0 ≤ q) :
    ∀ c ∈ xCounts dn ref u, 0 ≤ c := by
  intro c hc
  obtain ⟨i, hi, rfl⟩ := List.getElem_of_mem hc
  have hi' : i < dn.length := by simpa [xCounts] using hi
  simp only [xCounts, List.getElem_mapIdx]
  rw [stochRound_eq]
  exact roundedCount_nonneg _ _ (div_nonneg (h _ (List.getElem_mem hi')) hr)

theorem meanRef_eq [IsStrictOrderedRing K] (cs : List (XCloud K)) (prods l : List ℕ) (r : K)
    (h : meanRef cs prods l = .ok r) :
    ∃ refs : List K, List.Forall₂ (fun nm v => ∃ c, cloudGet cs nm = .ok c ∧ v = c.mps.ref) l refs ∧
      r = refs.sum / (prods.length : K) := by
  induction l generalizing r with
  | nil => unfold meanRef at h; cases h; exact ⟨[], List.Forall₂.nil, by simp⟩
  | cons nm l ih =>
    unfold meanRef at h
    split at h
    · cases h
    · next c hc =>
      split at h
      · cases h
      · next r' hr' =>
        cases h
        obtain ⟨refs, h1, h2⟩ := ih r' hr'
        refine ⟨c.mps.ref :: refs, List.Forall₂.cons ⟨c, hc, rfl⟩ h1, ?_⟩
        rw [h2, List.sum_cons, add_div]

theorem prodLoop_spec (sq : K → K) (qe eInit : K) (cs : List (XCloud K)) (dn : List K) (proj : List (Particle K))
    (d : XDraws K) (shared : Option (List ℤ × K)) (ps : List ℕ) (k : ℕ) (info info' : ℕ → NewMPs K)
    (h : prodLoop sq qe eInit cs dn proj d shared ps k info = .ok info') (nm : ℕ) :
    (nm ∉ ps → info' nm = info nm) ∧
    (nm ∈ ps → ∃ (k' : ℕ) (c : XCloud K), cloudGet cs nm = .ok c ∧
      info' nm = xNew (shared.getD (xCounts dn c.mps.ref (d.u k'), c.mps.ref)).1 proj
        (shared.getD (xCounts dn c.mps.ref (d.u k'), c.mps.ref)).2 (sq (2 * (eInit / 3) * qe / c.mass)) (d.rv k')) := by
  induction ps generalizing k info with
  | nil => unfold prodLoop at h; cases h; simp
  | cons a ps ih =>
    unfold prodLoop at h
    split at h
    · cases h
    · next c hc =>
      dsimp only at h
      obtain ⟨i1, i2⟩ := ih _ _ h
      refine ⟨fun hn => ?_, fun hm => ?_⟩
      · rw [i1 (fun hm => hn (List.mem_cons_of_mem _ hm))]
        exact Function.update_of_ne (fun e : nm = a => hn (by rw [e]; exact List.mem_cons_self)) _ _
      · by_cases hps : nm ∈ ps
        · exact i2 hps
        · have e : nm = a := by
            rcases List.mem_cons.1 hm with e | e
            · exact e
            · exact absurd e hps
          subst e
          rw [i1 hps, Function.update_self]
          exact ⟨k, c, hc, rfl⟩

/-- number of ionisations of each projectile -/
def IsPer (T : XTable K) (lg : K → K) (mass qe dens dt : K) (proj : List (Particle K)) (v per : List K) : Prop :=
  per.length = proj.length ∧ ∀ (i : ℕ) (q : K), per[i]? = some q → ∃ (p : Particle K) (w s : K),
    proj[i]? = some p ∧ v[i]? = some w ∧ T.getSigma lg (1 / 2 * mass / qe * w * w) = .ok s ∧
    q = ionisations s dens w dt (p .nel)

theorem dnPer_isPer (pr : Proc K) (lg : K → K) (mass qe dt : K) (proj : List (Particle K)) (v sig : List K)
    (hv : v.length = proj.length) (h : pr.sigmas lg mass qe v = .ok sig) :
    IsPer pr.table lg mass qe pr.dens dt proj v (dnPer sig pr.dens dt v (proj.map (fun p => p .nel))) := by
  have hm := mapM_ok _ _ _ h
  have hsl : sig.length = proj.length := by rw [← hm.length_eq, hv]
  have hlen : (dnPer sig pr.dens dt v (proj.map (fun p => p .nel))).length = proj.length := by
    simp [dnPer, hsl, hv]
  refine ⟨hlen, ?_⟩
  intro i q hq
  obtain ⟨hi, e⟩ := List.getElem?_eq_some_iff.mp hq
  have hi' : i < proj.length := by rw [hlen] at hi; exact hi
  have hs := (List.forall₂_iff_get.mp hm).2 i (by omega) (by omega)
  refine ⟨proj[i], v[i], sig[i], List.getElem?_eq_getElem hi', List.getElem?_eq_getElem (by omega), hs, ?_⟩
  rw [← e]
  simp only [dnPer, ionisations, List.getElem_zipWith, List.getElem_zip, List.getElem_map]
  ring

end Floor

/-! ## accumulated products -/

/-- every new macroparticle is at the place of a projectile of one of the clouds, the arrays fit together
and no size is negative -/
def AtProj (cs : List (XCloud K)) (m : NewMPs K) : Prop :=
  ∃ src : List (Particle K), (∀ p ∈ src, ∃ b ∈ cs, p ∈ b.mps.live) ∧ m.n = src.length ∧
    m.arr .x = src.map (fun p => p .x) ∧ m.arr .y = src.map (fun p => p .y) ∧ m.arr .z = src.map (fun p => p .z) ∧
    (∀ f, f ≠ .tl → (m.arr f).length = src.length) ∧ ∀ v ∈ m.arr .nel, 0 ≤ v

theorem AtProj.empty (cs : List (XCloud K)) : AtProj cs (NewMPs.empty (K := K)) :=
  ⟨[], by simp, by simp [NewMPs.empty], by simp [NewMPs.empty], by simp [NewMPs.empty], by simp [NewMPs.empty],
    by simp [NewMPs.empty], by simp [NewMPs.empty]⟩

theorem AtProj.append {cs : List (XCloud K)} {a b : NewMPs K} (ha : AtProj cs a) (hb : AtProj cs b) :
    AtProj cs (a.append b) := by
  obtain ⟨s1, p1, n1, x1, y1, z1, l1, q1⟩ := ha
  obtain ⟨s2, p2, n2, x2, y2, z2, l2, q2⟩ := hb
  refine ⟨s1 ++ s2, ?_, by simp [NewMPs.append, n1, n2], by simp [NewMPs.append, x1, x2], by simp [NewMPs.append, y1, y2],
    by simp [NewMPs.append, z1, z2], fun f hf => by simp [NewMPs.append, l1 f hf, l2 f hf], ?_⟩
  · intro p hp
    rcases List.mem_append.1 hp with h | h
    · exact p1 p h
    · exact p2 p h
  · intro v hv
    rcases List.mem_append.1 (show v ∈ a.arr .nel ++ b.arr .nel from hv) with h | h
    · exact q1 v h
    · exact q2 v h

theorem IsBatch.atProj {cs : List (XCloud K)} {proj : List (Particle K)} {counts : List ℤ} {ref : K} {m : NewMPs K}
    (h : IsBatch proj counts ref m) (hl : proj.length = counts.length) (h0 : ∀ c ∈ counts, 0 ≤ c) (hr : 0 ≤ ref)
    (b : XCloud K) (hb : b ∈ cs) (hp : proj = b.mps.live) : AtProj cs m := by
  have hlen := perProjectile_length proj counts hl
  have hs := sum_toNat counts h0
  have hn : m.n.toNat = (perProjectile proj counts).length := by rw [hlen, h.n_eq]; omega
  refine ⟨perProjectile proj counts, fun p hm => ⟨b, hb, hp ▸ mem_perProjectile _ _ _ hm⟩, ?_, h.x, h.y, h.z, ?_, ?_⟩
  · rw [hlen, h.n_eq, hs]
  · intro f hf
    cases f with
    | nel => rw [h.nel, List.length_replicate, hn]
    | x => rw [h.x, List.length_map]
    | y => rw [h.y, List.length_map]
    | z => rw [h.z, List.length_map]
    | vx => rw [h.vx, hn]
    | vy => rw [h.vy, hn]
    | vz => rw [h.vz, hn]
    | tl => exact absurd rfl hf
  · intro v hv
    rw [h.nel] at hv
    rw [List.eq_of_mem_replicate hv]
    exact hr

theorem accProds_atProj (cs : List (XCloud K)) (info : ℕ → NewMPs K) (dn : K) (ps : List ℕ)
    (hi : ∀ nm ∈ ps, AtProj cs (info nm)) (a : (ℕ → NewMPs K) × (ℕ → K)) (ha : ∀ nm, AtProj cs (a.1 nm)) (nm : ℕ) :
    AtProj cs ((accProds info dn ps a).1 nm) := by
  induction ps generalizing a with
  | nil => exact ha nm
  | cons p ps ih =>
    unfold accProds
    apply ih (fun q hq => hi q (List.mem_cons_of_mem _ hq))
    intro q
    by_cases e : q = p
    · subst e
      simp only [Function.update_self]
      exact (ha q).append (hi q List.mem_cons_self)
    · simp only [Function.update_of_ne e]
      exact ha q

theorem accProds_outside (info : ℕ → NewMPs K) (dn : K) (ps : List ℕ) (a : (ℕ → NewMPs K) × (ℕ → K)) (nm : ℕ) (h : nm ∉ ps) :
    (accProds info dn ps a).1 nm = a.1 nm := by
  induction ps generalizing a with
  | nil => rfl
  | cons p ps ih =>
    unfold accProds
    rw [ih _ (fun hq => h (List.mem_cons_of_mem _ hq))]
    exact Function.update_of_ne (fun e : nm = p => h (by rw [e]; exact List.mem_cons_self)) _ _

theorem accProds_dn (info : ℕ → NewMPs K) (dn : K) (ps : List ℕ) (a : (ℕ → NewMPs K) × (ℕ → K)) (nm : ℕ) :
    (accProds info dn ps a).2 nm = a.2 nm + (ps.count nm : K) * dn := by
  induction ps generalizing a with
  | nil => simp [accProds]
  | cons p ps ih =>
    unfold accProds
    rw [ih]
    by_cases e : nm = p
    · subst e
      simp only [Function.update_self, List.count_cons_self]
      push_cast
      ring
    · simp only [Function.update_of_ne e]
      rw [List.count_cons_of_ne (fun h => e h.symm)]

end PyECLOUD
