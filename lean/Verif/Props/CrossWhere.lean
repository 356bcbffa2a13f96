import Verif.Props.CrossIon

/-!
# C190: ionisation products come only from projectiles that can ionise
-/

namespace PyECLOUD

variable {K : Type} [Field K] [LinearOrder K] [IsStrictOrderedRing K] [FloorRing K]

theorem roundedCount_pos (x u : K) (h0 : 0 ≤ x) (hu : 0 ≤ u) (h : 0 < roundedCount x u) : 0 < x := by
  rcases h0.lt_or_eq with h' | h'
  · exact h'
  · subst h'
    unfold roundedCount at h
    rw [Int.fract_zero, if_neg (not_lt.2 hu), Int.floor_zero] at h
    exact absurd h (lt_irrefl _)

theorem perProjectile_get (proj : List (Particle K)) (counts : List ℤ) (p : Particle K) (h : p ∈ perProjectile proj counts) :
    ∃ (i : ℕ) (c : ℤ), proj[i]? = some p ∧ counts[i]? = some c ∧ 0 < c := by
  obtain ⟨⟨p', c⟩, hm, hp⟩ := List.mem_flatMap.1 h
  obtain ⟨hc, rfl⟩ := List.mem_replicate.1 hp
  obtain ⟨i, hi⟩ := List.getElem?_of_mem hm
  obtain ⟨h1, h2⟩ := List.getElem?_zip_eq_some.1 hi
  exact ⟨i, c, h1, h2, by simp only at hc; omega⟩

theorem ionisations_pos (s dens w dt nel : K) (h1 : 0 ≤ s) (h2 : 0 ≤ dens) (h3 : 0 ≤ w) (h4 : 0 ≤ dt) (h5 : 0 ≤ nel)
    (h : 0 < ionisations s dens w dt nel) : 0 < s ∧ 0 < dens ∧ 0 < w ∧ 0 < dt ∧ 0 < nel := by
  have hne := h.ne'
  unfold ionisations at hne
  simp only [ne_eq, mul_eq_zero, not_or] at hne
  obtain ⟨⟨⟨a, b⟩, c, e⟩, f⟩ := hne
  exact ⟨h1.lt_of_ne' a, h2.lt_of_ne' b, h3.lt_of_ne' c, h4.lt_of_ne' e, h5.lt_of_ne' f⟩

/-- **C190**: every new macroparticle of a product is at the place of a projectile that moves, has a size, and whose cross section at
its energy is positive, and there are targets left. -/
theorem C190_only (pr pr' : Proc K) (sq lg : K → K) (qe dt : K) (cs : List (XCloud K)) (mass : K)
    (proj : List (Particle K)) (v : List K) (flag : Bool) (d : XDraws K) (info : ℕ → NewMPs K) (dn : K)
    (hv : v.length = proj.length) (h : pr.generate sq lg qe dt cs mass proj v flag d = .ok (pr', info, dn))
    (hs : ∀ e s, pr.table.getSigma lg e = .ok s → 0 ≤ s) (hd : 0 ≤ pr.dens) (hdt : 0 ≤ dt) (hw : ∀ w ∈ v, 0 ≤ w)
    (hn : ∀ p ∈ proj, 0 ≤ p .nel) (hr : ∀ c ∈ cs, 0 < c.mps.ref) (hu : ∀ k i, 0 ≤ d.u k i)
    (nm j : ℕ) (x y z : K) (hx : ((info nm).arr .x)[j]? = some x) (hy : ((info nm).arr .y)[j]? = some y)
    (hz : ((info nm).arr .z)[j]? = some z) :
    nm ∈ pr.products ∧ ∃ (i : ℕ) (p : Particle K) (w s : K), proj[i]? = some p ∧ v[i]? = some w ∧
      pr.table.getSigma lg (1 / 2 * mass / qe * w * w) = .ok s ∧ p .x = x ∧ p .y = y ∧ p .z = z ∧
      0 < s ∧ 0 < pr.dens ∧ 0 < w ∧ 0 < dt ∧ 0 < p .nel := by
  obtain ⟨per, -, hl, hnn, hper, h1, h2, h3⟩ := C46_products pr pr' sq lg qe dt cs mass proj v flag d info dn hv h hs hd hdt hw hn hr
  have hmem : nm ∈ pr.products := by
    by_contra hc
    rw [(h1 nm hc).2] at hx
    simp at hx
  refine ⟨hmem, ?_⟩
  have key : ∀ (counts : List ℤ) (ref : K) (u : ℕ → K), 0 ≤ ref → (∀ i, 0 ≤ u i) → counts.length = proj.length →
      (∀ (i : ℕ) (q : K), per[i]? = some q → counts[i]? = some (roundedCount (q / ref) (u i))) →
      IsBatch proj counts ref (info nm) → ∃ (i : ℕ) (p : Particle K) (w s : K), proj[i]? = some p ∧ v[i]? = some w ∧
      pr.table.getSigma lg (1 / 2 * mass / qe * w * w) = .ok s ∧ p .x = x ∧ p .y = y ∧ p .z = z ∧
      0 < s ∧ 0 < pr.dens ∧ 0 < w ∧ 0 < dt ∧ 0 < p .nel := by
    intro counts ref u href hu hcl hc hb
    rw [hb.x, List.getElem?_map] at hx
    rw [hb.y, List.getElem?_map] at hy
    rw [hb.z, List.getElem?_map] at hz
    cases hg : (perProjectile proj counts)[j]? with
    | none => rw [hg] at hx; simp at hx
    | some p =>
      rw [hg] at hx hy hz
      simp only [Option.map_some, Option.some.injEq] at hx hy hz
      obtain ⟨i, c, hp, hci, hc0⟩ := perProjectile_get proj counts p (List.mem_of_getElem? hg)
      have hil : i < per.length := by
        rw [hl]
        exact (List.getElem?_eq_some_iff.1 hp).1
      have hq : per[i]? = some per[i] := List.getElem?_eq_getElem hil
      rw [hc i _ hq] at hci
      cases hci
      obtain ⟨p', w, s, e1, e2, e3, e4⟩ := hper i _ hq
      rw [hp] at e1
      cases e1
      have hq0 : 0 ≤ per[i] := hnn _ (List.getElem_mem hil)
      have hpos := roundedCount_pos _ _ (div_nonneg hq0 href) (hu i) hc0
      have hqp : 0 < per[i] := hq0.lt_of_ne' (fun e => by rw [e, zero_div] at hpos; exact lt_irrefl _ hpos)
      rw [e4] at hqp
      exact ⟨i, p, w, s, hp, e2, e3, hx, hy, hz, ionisations_pos _ _ _ _ _ (hs _ _ e3) hd (hw w (List.mem_of_getElem? e2)) hdt
        (hn p (List.mem_of_getElem? hp)) hqp⟩
  cases he : pr.equally with
  | false =>
    obtain ⟨k, c, counts, hcm, -, hcl, hc, hb⟩ := h2 he nm hmem
    exact key counts _ _ (hr c hcm).le (hu k) hcl hc hb
  | true =>
    obtain ⟨refs, counts, hf, hcl, hc, hb⟩ := h3 he
    refine key counts _ _ (div_nonneg (List.sum_nonneg fun r hr' => ?_) (Nat.cast_nonneg _)) (hu 0) hcl hc (hb nm hmem)
    obtain ⟨i, hir, rfl⟩ := List.getElem_of_mem hr'
    obtain ⟨c, hcm, -, e⟩ := (List.forall₂_iff_get.mp hf).2 i (by rw [hf.length_eq]; exact hir) hir
    simp only [List.get_eq_getElem] at e
    rw [e]
    exact (hr c hcm).le

/-- **C190**: without targets, or with all projectiles at energies without cross section, nothing is created and no ionisation is
counted. -/
theorem C190_none (pr pr' : Proc K) (sq lg : K → K) (qe dt : K) (cs : List (XCloud K)) (mass : K)
    (proj : List (Particle K)) (v : List K) (flag : Bool) (d : XDraws K) (info : ℕ → NewMPs K) (dn : K)
    (hv : v.length = proj.length) (h : pr.generate sq lg qe dt cs mass proj v flag d = .ok (pr', info, dn))
    (hs : ∀ e s, pr.table.getSigma lg e = .ok s → 0 ≤ s) (hd : 0 ≤ pr.dens) (hdt : 0 ≤ dt) (hw : ∀ w ∈ v, 0 ≤ w)
    (hn : ∀ p ∈ proj, 0 ≤ p .nel) (hr : ∀ c ∈ cs, 0 < c.mps.ref) (hu : ∀ k i, 0 ≤ d.u k i)
    (h0 : pr.dens = 0 ∨ ∀ w ∈ v, pr.table.getSigma lg (1 / 2 * mass / qe * w * w) = .ok 0) :
    dn = 0 ∧ ∀ nm, (info nm).arr .x = [] ∧ (info nm).arr .y = [] ∧ (info nm).arr .nel = [] := by
  obtain ⟨per, hdn, hl, hnn, hper, h1, h2, h3⟩ := C46_products pr pr' sq lg qe dt cs mass proj v flag d info dn hv h hs hd hdt hw hn hr
  have hlen : ∀ nm, ((info nm).arr .y).length = ((info nm).arr .x).length ∧ ((info nm).arr .z).length = ((info nm).arr .x).length ∧
      ((info nm).arr .nel).length = (info nm).n.toNat ∧ ((info nm).n.toNat = ((info nm).arr .x).length) := by
    intro nm
    have key : ∀ (counts : List ℤ) (ref : K), counts.length = proj.length → (∀ c ∈ counts, 0 ≤ c) → IsBatch proj counts ref (info nm) →
        ((info nm).arr .y).length = ((info nm).arr .x).length ∧ ((info nm).arr .z).length = ((info nm).arr .x).length ∧
      ((info nm).arr .nel).length = (info nm).n.toNat ∧ ((info nm).n.toNat = ((info nm).arr .x).length) := by
      intro counts ref hcl hc0 hb
      refine ⟨by rw [hb.x, hb.y]; simp, by rw [hb.x, hb.z]; simp, by rw [hb.nel]; simp, ?_⟩
      rw [hb.x, List.length_map, perProjectile_length proj counts hcl.symm, hb.n_eq]
      clear hb hcl
      have : ((counts.map Int.toNat).sum : ℤ) = counts.sum := by
        induction counts with
        | nil => rfl
        | cons c l ih =>
          simp only [List.map_cons, List.sum_cons, Nat.cast_add]
          rw [ih (fun c hc => hc0 c (by simp [hc])), Int.toNat_of_nonneg (hc0 c (by simp))]
      omega
    have hcn : ∀ (counts : List ℤ) (ref : K) (u : ℕ → K), 0 ≤ ref → counts.length = proj.length →
        (∀ (i : ℕ) (q : K), per[i]? = some q → counts[i]? = some (roundedCount (q / ref) (u i))) → ∀ c ∈ counts, 0 ≤ c := by
      intro counts ref u href hcl hc c hcm
      obtain ⟨i, hi⟩ := List.getElem?_of_mem hcm
      have hil : i < per.length := by
        rw [hl, ← hcl]
        exact (List.getElem?_eq_some_iff.1 hi).1
      rw [hc i _ (List.getElem?_eq_getElem hil)] at hi
      cases hi
      have : 0 ≤ ⌊per[i] / ref⌋ := Int.floor_nonneg.2 (div_nonneg (hnn _ (List.getElem_mem hil)) href)
      unfold roundedCount
      split <;> omega
    by_cases hm : nm ∈ pr.products
    · cases he : pr.equally with
      | false =>
        obtain ⟨k, c, counts, hcm, -, hcl, hc, hb⟩ := h2 he nm hm
        exact key counts _ hcl (hcn counts _ _ (hr c hcm).le hcl hc) hb
      | true =>
        obtain ⟨refs, counts, hf, hcl, hc, hb⟩ := h3 he
        refine key counts _ hcl (hcn counts _ _ (div_nonneg (List.sum_nonneg fun r hr' => ?_) (Nat.cast_nonneg _)) hcl hc) (hb nm hm)
        obtain ⟨i, hir, rfl⟩ := List.getElem_of_mem hr'
        obtain ⟨c, hcm, -, e⟩ := (List.forall₂_iff_get.mp hf).2 i (by rw [hf.length_eq]; exact hir) hir
        simp only [List.get_eq_getElem] at e
        rw [e]
        exact (hr c hcm).le
    · obtain ⟨a, b⟩ := h1 nm hm
      simp [a, b]
  constructor
  · rw [hdn]
    refine List.sum_eq_zero (fun q hq => ?_)
    obtain ⟨i, hi⟩ := List.getElem?_of_mem hq
    obtain ⟨p, w, s, -, e2, e3, rfl⟩ := hper i q hi
    rcases h0 with h0 | h0
    · simp [ionisations, h0]
    · rw [h0 w (List.mem_of_getElem? e2)] at e3
      cases e3
      simp [ionisations]
  · intro nm
    obtain ⟨l1, l2, l3, l4⟩ := hlen nm
    have hx : (info nm).arr .x = [] := by
      by_contra hne
      have hp : 0 < ((info nm).arr .x).length := List.length_pos_iff.2 hne
      obtain ⟨-, i, p, w, s, -, e2, e3, -, -, -, p1, p2, -⟩ := C190_only pr pr' sq lg qe dt cs mass proj v flag d info dn hv h hs hd hdt hw
        hn hr hu nm 0 _ _ _ (List.getElem?_eq_getElem hp) (List.getElem?_eq_getElem (by omega)) (List.getElem?_eq_getElem (by omega))
      rcases h0 with h0 | h0
      · exact p2.ne' h0
      · rw [h0 w (List.mem_of_getElem? e2)] at e3
        cases e3
        exact lt_irrefl _ p1
    rw [hx, List.length_nil] at l1 l4
    exact ⟨hx, List.length_eq_zero_iff.1 l1, List.length_eq_zero_iff.1 (by omega)⟩

/-- a product appears at the place of a projectile -/
example : ∃ r, (exProc true).generate (fun a => |a|) id 1 (1 / 1000) exClouds 2 toy.live (toy.live.map (speed (fun a => |a|)))
    true exXDraws = .ok r ∧ ((r.2.1 2).arr .x)[0]? = some 1 ∧ ∀ k i, 0 ≤ exXDraws.u k i := by
  have : ∃ r, (exProc true).generate (fun a => |a|) id 1 (1 / 1000) exClouds 2 toy.live (toy.live.map (speed (fun a => |a|)))
      true exXDraws = .ok r ∧ ((r.2.1 2).arr .x)[0]? = some 1 := by
    refine exists_ok ?_
    decide +kernel
  obtain ⟨r, h1, h2⟩ := this
  exact ⟨r, h1, h2, fun _ _ => by norm_num [exXDraws]⟩

/-- with projectiles faster than the table goes, nothing appears -/
example : ∃ r, (exProc false).generate (fun a => |a|) id 1 (1 / 1000) exClouds 2 toy.live (toy.live.map (fun _ => 100))
    true exXDraws = .ok r ∧ r.2.2 = 0 ∧ (r.2.1 1).arr .x = [] ∧
    ∀ w ∈ toy.live.map (fun _ => (100 : ℚ)), (exProc false).table.getSigma id (1 / 2 * 2 / 1 * w * w) = .ok 0 := by
  refine exists_ok ?_
  decide +kernel

end PyECLOUD
