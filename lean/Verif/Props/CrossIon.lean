import Verif.Lemmas.CrossIon
import Verif.Props.MPSystem

/-!
# Properties of cross ionisation (C46, C68)
-/

namespace PyECLOUD

set_option linter.unusedSectionVars false

variable {K : Type} [Field K] [LinearOrder K] [IsStrictOrderedRing K] [FloorRing K]

/-! ## one process -/

/-- **C46**, one call of a process. The number of ionisations is the sum over the projectiles of
cross section x target density x path length x size; the target loses exactly that, up to the rounding to three
decimals; nothing else of the process changes. -/
theorem C46_target (pr pr' : Proc K) (sq lg : K → K) (qe dt : K) (cs : List (XCloud K)) (mass : K)
    (proj : List (Particle K)) (v : List K) (flag : Bool) (d : XDraws K) (info : ℕ → NewMPs K) (dn : K)
    (hv : v.length = proj.length) (h : pr.generate sq lg qe dt cs mass proj v flag d = .ok (pr', info, dn)) :
    (∃ per : List K, dn = per.sum ∧ per.length = proj.length ∧
      ∀ (i : ℕ) (q : K), per[i]? = some q → ∃ (p : Particle K) (w s : K), proj[i]? = some p ∧ v[i]? = some w ∧
        pr.table.getSigma lg (1 / 2 * mass / qe * w * w) = .ok s ∧ q = ionisations s pr.dens w dt (p .nel)) ∧
    (flag = false → pr' = pr) ∧
    (flag = true → |pr'.nTarget - (pr.nTarget - dn)| ≤ 1 / 2000 ∧ pr'.dens = pr'.nTarget / pr'.area ∧
      pr'.area = pr.area ∧ pr'.products = pr.products ∧ pr'.table = pr.table ∧ pr'.eInit = pr.eInit ∧
      pr'.equally = pr.equally) := by
  unfold Proc.generate at h
  split at h
  · cases h
  · next sig hs =>
    dsimp only at h
    split at h
    · cases h
    · next info' _ =>
      cases h
      refine ⟨⟨_, rfl, dnPer_isPer pr lg mass qe dt proj v sig hv hs⟩, fun e => by subst e; rfl, fun e => ?_⟩
      subst e
      refine ⟨?_, rfl, rfl, rfl, rfl, rfl, rfl⟩
      simp only [if_true, Proc.deplete]
      refine (roundDec_near 3 _).trans (le_of_eq ?_)
      norm_num

/-- **C46**, the products of one call. Without `generate_equally` every product gets, from projectile `i`, the
stochastically rounded number `n_i / nel_mp_ref` of macroparticles of its own reference size at the position of
that projectile; with `generate_equally` all products get the same counts, positions and sizes, the size being the
mean reference size. -/
theorem C46_products (pr pr' : Proc K) (sq lg : K → K) (qe dt : K) (cs : List (XCloud K)) (mass : K)
    (proj : List (Particle K)) (v : List K) (flag : Bool) (d : XDraws K) (info : ℕ → NewMPs K) (dn : K)
    (hv : v.length = proj.length) (h : pr.generate sq lg qe dt cs mass proj v flag d = .ok (pr', info, dn))
    (hs : ∀ e s, pr.table.getSigma lg e = .ok s → 0 ≤ s) (hd : 0 ≤ pr.dens) (hdt : 0 ≤ dt) (hw : ∀ w ∈ v, 0 ≤ w)
    (hn : ∀ p ∈ proj, 0 ≤ p .nel) (hr : ∀ c ∈ cs, 0 < c.mps.ref) :
    ∃ per : List K, dn = per.sum ∧ per.length = proj.length ∧ (∀ q ∈ per, 0 ≤ q) ∧
    (∀ (i : ℕ) (q : K), per[i]? = some q → ∃ (p : Particle K) (w s : K), proj[i]? = some p ∧ v[i]? = some w ∧
      pr.table.getSigma lg (1 / 2 * mass / qe * w * w) = .ok s ∧ q = ionisations s pr.dens w dt (p .nel)) ∧
    (∀ nm ∉ pr.products, (info nm).n = 0 ∧ ∀ f, (info nm).arr f = []) ∧
    (pr.equally = false → ∀ nm ∈ pr.products, ∃ (k : ℕ) (c : XCloud K) (counts : List ℤ), c ∈ cs ∧ c.name = nm ∧
      counts.length = proj.length ∧
      (∀ (i : ℕ) (q : K), per[i]? = some q → counts[i]? = some (roundedCount (q / c.mps.ref) (d.u k i))) ∧
      IsBatch proj counts c.mps.ref (info nm)) ∧
    (pr.equally = true → ∃ (refs : List K) (counts : List ℤ),
      List.Forall₂ (fun nm r => ∃ c ∈ cs, c.name = nm ∧ r = c.mps.ref) pr.products refs ∧
      counts.length = proj.length ∧
      (∀ (i : ℕ) (q : K), per[i]? = some q →
        counts[i]? = some (roundedCount (q / (refs.sum / (pr.products.length : K))) (d.u 0 i))) ∧
      ∀ nm ∈ pr.products, IsBatch proj counts (refs.sum / (pr.products.length : K)) (info nm)) := by
  have hget : ∀ nm c, cloudGet cs nm = .ok c → c ∈ cs ∧ c.name = nm := by
    intro nm c hc
    unfold cloudGet at hc
    split at hc
    · next c' hf =>
      cases hc
      exact ⟨List.mem_reverse.1 (List.mem_of_find?_eq_some hf), by simpa using List.find?_some hf⟩
    · cases hc
  unfold Proc.generate at h
  split at h
  · cases h
  · next sig hsig =>
    dsimp only at h
    split at h
    · cases h
    · next info' hi =>
      cases h
      obtain ⟨hl, hper⟩ := dnPer_isPer pr lg mass qe dt proj v sig hv hsig
      generalize hpe : dnPer sig pr.dens dt v (proj.map (fun p => p .nel)) = per at hl hper hi
      have hnn : ∀ q ∈ per, 0 ≤ q := by
        intro q hq
        obtain ⟨i, hiq⟩ := List.getElem?_of_mem hq
        obtain ⟨p, w, s, h1, h2, h3, rfl⟩ := hper i q hiq
        have a1 := hs _ _ h3
        have a2 := hw w (List.mem_of_getElem? h2)
        have a3 := hn p (List.mem_of_getElem? h1)
        unfold ionisations
        positivity
      refine ⟨per, rfl, hl, hnn, hper, ?_, ?_, ?_⟩
      · intro nm hnm
        split at hi
        · split at hi
          · cases hi
          · have := (prodLoop_spec _ _ _ _ _ _ _ _ _ _ _ _ hi nm).1 hnm
            rw [this]
            exact ⟨rfl, fun _ => rfl⟩
        · have := (prodLoop_spec _ _ _ _ _ _ _ _ _ _ _ _ hi nm).1 hnm
          rw [this]
          exact ⟨rfl, fun _ => rfl⟩
      · intro he nm hnm
        rw [he, if_neg (by simp)] at hi
        obtain ⟨k, c, hc, e⟩ := (prodLoop_spec _ _ _ _ _ _ _ _ _ _ _ _ hi nm).2 hnm
        obtain ⟨hcm, hcn⟩ := hget nm c hc
        refine ⟨k, c, xCounts per c.mps.ref (d.u k), hcm, hcn, by rw [xCounts_length, hl],
          fun i q hq => xCounts_get _ _ _ _ _ hq, ?_⟩
        rw [e]
        exact xNew_batch _ _ _ _ _ (by simp [xCounts_length, hl]) (xCounts_nonneg per _ _ (hr c hcm).le hnn)
      · intro he
        rw [he, if_pos rfl] at hi
        split at hi
        · cases hi
        · next r hm =>
          obtain ⟨refs, hf, rfl⟩ := meanRef_eq _ _ _ _ hm
          have hf' : List.Forall₂ (fun nm r => ∃ c ∈ cs, c.name = nm ∧ r = c.mps.ref) pr.products refs := by
            refine hf.imp ?_
            rintro nm r ⟨c, hc, rfl⟩
            exact ⟨c, (hget nm c hc).1, (hget nm c hc).2, rfl⟩
          have hsum : 0 ≤ refs.sum := by
            apply List.sum_nonneg
            intro r hrm
            obtain ⟨i, hir, rfl⟩ := List.getElem_of_mem hrm
            obtain ⟨c, hcm, -, e⟩ := (List.forall₂_iff_get.mp hf').2 i (by rw [hf'.length_eq]; exact hir) hir
            simp only [List.get_eq_getElem] at e
            rw [e]
            exact (hr c hcm).le
          have hr0 : 0 ≤ refs.sum / (pr.products.length : K) := div_nonneg hsum (by positivity)
          refine ⟨refs, xCounts per _ (d.u 0), hf', by rw [xCounts_length, hl], fun i q hq => xCounts_get _ _ _ _ _ hq, ?_⟩
          intro nm hnm
          obtain ⟨k, c, hc, e⟩ := (prodLoop_spec _ _ _ _ _ _ _ _ _ _ _ _ hi nm).2 hnm
          rw [e]
          exact xNew_batch _ _ _ _ _ (by simp [xCounts_length, hl]) (xCounts_nonneg per _ _ hr0 hnn)

/-- **C46**, charge: the charge created for a product differs from the number of ionisations by less than one
macroparticle size per projectile. -/
theorem C46_charge (proj : List (Particle K)) (per : List K) (counts : List ℤ) (ref : K) (u : ℕ → K) (m : NewMPs K)
    (hr : 0 < ref) (hu : ∀ i, 0 ≤ u i) (hp : ∀ q ∈ per, 0 ≤ q) (hl : per.length = proj.length)
    (hl' : counts.length = proj.length)
    (hc : ∀ (i : ℕ) (q : K), per[i]? = some q → counts[i]? = some (roundedCount (q / ref) (u i)))
    (hb : IsBatch proj counts ref m) :
    |(m.arr .nel).sum - per.sum| ≤ (proj.length : K) * ref := by
  have hce : counts = per.mapIdx (fun i q => roundedCount (q / ref) (u i)) := by
    apply List.ext_getElem?
    intro i
    by_cases hi : i < per.length
    · rw [hc i _ (List.getElem?_eq_getElem hi)]
      simp [hi]
    · rw [List.getElem?_eq_none (by omega), List.getElem?_eq_none (by simp; omega)]
  have h0 : ∀ c ∈ counts, 0 ≤ c := by
    intro c hcm
    obtain ⟨i, hi, rfl⟩ := List.getElem_of_mem hcm
    have hi' : i < per.length := by omega
    have := hc i _ (List.getElem?_eq_getElem hi')
    rw [List.getElem?_eq_getElem hi] at this
    rw [Option.some.inj this]
    exact roundedCount_nonneg _ _ (div_nonneg (hp _ (List.getElem_mem hi')) hr.le)
  have hs := sum_nonneg_int counts h0
  have e : (m.arr .nel).sum = ((counts.sum : ℤ) : K) * ref := by
    rw [hb.nel, List.sum_replicate, nsmul_eq_mul, hb.n_eq]
    have : ((counts.sum.toNat : ℕ) : K) = ((counts.sum.toNat : ℤ) : K) := by rw [Int.cast_natCast]
    rw [this, Int.toNat_of_nonneg hs]
  rw [e, ← hl, hce]
  clear e hs h0 hce hc hb hl hl'
  suffices h : ∀ u : ℕ → K, (∀ i, 0 ≤ u i) →
      |(((per.mapIdx (fun i q => roundedCount (q / ref) (u i))).sum : ℤ) : K) * ref - per.sum| ≤ (per.length : K) * ref
    from h u hu
  induction per with
  | nil => simp
  | cons q per ih =>
    intro u hu
    have i1 := ih (fun r hr => hp r (List.mem_cons_of_mem _ hr)) (fun i => u (i + 1)) (fun i => hu _)
    have i2 := (roundedCount_charge q ref (u 0) hr (hu 0)).le
    have e : (q :: per).mapIdx (fun i q => roundedCount (q / ref) (u i))
        = roundedCount (q / ref) (u 0) :: per.mapIdx (fun i q => roundedCount (q / ref) (u (i + 1))) := by
      rw [List.mapIdx_cons]
    rw [e, List.sum_cons, List.sum_cons, List.length_cons]
    generalize (per.mapIdx (fun i q => roundedCount (q / ref) (u (i + 1)))).sum = a at i1 ⊢
    generalize roundedCount (q / ref) (u 0) = b at i2 ⊢
    push_cast
    obtain ⟨j1, j2⟩ := abs_le.1 i1
    obtain ⟨k1, k2⟩ := abs_le.1 i2
    rw [abs_le]
    constructor <;> linarith

/-! ## histories of a process -/

/-- inputs of one call of a process -/
structure ProcCall (K : Type) where
  dt : K
  clouds : List (XCloud K)
  mass : K
  proj : List (Particle K)
  v : List K
  d : XDraws K

/-- successive calls; returns the numbers of ionisations -/
def Proc.runCalls (sq lg : K → K) (qe : K) : List (ProcCall K) → Proc K → Except PyErr (Proc K × List K)
  | [], pr => .ok (pr, [])
  | c :: cs, pr =>
    match pr.generate sq lg qe c.dt c.clouds c.mass c.proj c.v true c.d with
    | .error e => .error e
    | .ok (pr', _, dn) =>
      match Proc.runCalls sq lg qe cs pr' with
      | .error e => .error e
      | .ok (pr'', dns) => .ok (pr'', dn :: dns)

/-- **C46**, histories: after any number of calls with any projectiles, the target has lost all the ionisations so
far, up to at most half a thousandth per call, and the density is population over area. -/
theorem C46_history (sq lg : K → K) (qe : K) (calls : List (ProcCall K)) (pr pr' : Proc K) (dns : List K)
    (hv : ∀ c ∈ calls, c.v.length = c.proj.length) (h0 : pr.dens = pr.nTarget / pr.area)
    (h : Proc.runCalls sq lg qe calls pr = .ok (pr', dns)) :
    |pr'.nTarget - (pr.nTarget - dns.sum)| ≤ (calls.length : K) / 2000 ∧ pr'.dens = pr'.nTarget / pr'.area ∧
      pr'.area = pr.area ∧ dns.length = calls.length := by
  induction calls generalizing pr dns with
  | nil => unfold Proc.runCalls at h; cases h; simp [h0]
  | cons c calls ih =>
    unfold Proc.runCalls at h
    split at h
    · cases h
    · next pr1 info dn hg =>
      split at h
      · cases h
      · next pr2 dns' hr =>
        cases h
        obtain ⟨-, -, h3⟩ := C46_target pr pr1 sq lg qe c.dt c.clouds c.mass c.proj c.v true c.d info dn
          (hv c List.mem_cons_self) hg
        obtain ⟨a1, a2, a3, -⟩ := h3 rfl
        obtain ⟨i1, i2, i3, i4⟩ := ih pr1 dns' (fun q hq => hv q (List.mem_cons_of_mem _ hq)) a2 hr
        refine ⟨?_, i2, by rw [i3, a3], by simp [i4]⟩
        simp only [List.sum_cons, List.length_cons]
        push_cast
        rw [abs_le] at *
        constructor <;> linarith [a1.1, a1.2, i1.1, i1.2]

/-- **C46**, depletion, partial: the target density stays non-negative in a call that does not ionise more than
what is left. Missing: calls that ionise more (see `C46_negative_violated`). -/
theorem C46_nonneg_partial (pr pr' : Proc K) (sq lg : K → K) (qe dt : K) (cs : List (XCloud K)) (mass : K)
    (proj : List (Particle K)) (v : List K) (d : XDraws K) (info : ℕ → NewMPs K) (dn : K) (ha : 0 < pr.area)
    (h : pr.generate sq lg qe dt cs mass proj v true d = .ok (pr', info, dn)) (hdn : dn ≤ pr.nTarget) :
    0 ≤ pr'.nTarget ∧ 0 ≤ pr'.dens := by
  unfold Proc.generate at h
  split at h
  · cases h
  · dsimp only at h
    split at h
    · cases h
    · cases h
      simp only [if_true, Proc.deplete]
      have := roundDec_nonneg (K := K) 3 _ (sub_nonneg.2 hdn)
      exact ⟨this, div_nonneg this ha.le⟩

/-! ## the whole step -/

theorem cloudGet_mem (cs : List (XCloud K)) (nm : ℕ) (c : XCloud K) (hc : cloudGet cs nm = .ok c) :
    c ∈ cs ∧ c.name = nm := by
  unfold cloudGet at hc
  split at hc
  · next c' hf =>
    cases hc
    exact ⟨List.mem_reverse.1 (List.mem_of_find?_eq_some hf), by simpa using List.find?_some hf⟩
  · cases hc

/-- what is required of the state before a step: physical (non-negative) quantities -/
structure XSane (sq lg : K → K) (dt : K) (cs : List (XCloud K)) : Prop where
  sqrt : ∀ a, 0 ≤ sq a
  dt : 0 ≤ dt
  wf : ∀ c ∈ cs, c.mps.WF
  room : ∀ c ∈ cs, c.mps.nmp < c.mps.cap
  nel : ∀ c ∈ cs, ∀ p ∈ c.mps.live, 0 ≤ p .nel
  ref : ∀ c ∈ cs, 0 < c.mps.ref

/-- what is required of a process: non-negative density and cross section -/
def Proc.Sane (lg : K → K) (pr : Proc K) : Prop :=
  0 ≤ pr.dens ∧ ∀ e s, pr.table.getSigma lg e = .ok s → 0 ≤ s

theorem generate_atProj (pr pr' : Proc K) (sq lg : K → K) (qe dt : K) (cs : List (XCloud K)) (mass : K)
    (b : XCloud K) (hb : b ∈ cs) (hx : XSane sq lg dt cs) (hp : pr.Sane lg) (d : XDraws K) (info : ℕ → NewMPs K) (dn : K)
    (h : pr.generate sq lg qe dt cs mass b.mps.live (b.mps.live.map (speed sq)) true d = .ok (pr', info, dn)) :
    0 ≤ dn ∧ ∀ nm, AtProj cs (info nm) := by
  obtain ⟨per, e, hl, hnn, -, h1, h2, h3⟩ := C46_products pr pr' sq lg qe dt cs mass b.mps.live _ true d info dn (by simp) h hp.2
    hp.1 hx.dt (by
      intro w hw
      obtain ⟨p, -, rfl⟩ := List.mem_map.1 hw
      exact hx.sqrt _) (hx.nel b hb) hx.ref
  refine ⟨e ▸ List.sum_nonneg hnn, fun nm => ?_⟩
  by_cases hm : nm ∈ pr.products
  · have hcount : ∀ (counts : List ℤ) (r : K) (u : ℕ → K), 0 ≤ r → counts.length = b.mps.live.length →
        (∀ (i : ℕ) (q : K), per[i]? = some q → counts[i]? = some (roundedCount (q / r) (u i))) → ∀ c ∈ counts, 0 ≤ c := by
      intro counts r u hr hcl hc c hcm
      obtain ⟨i, hi, rfl⟩ := List.getElem_of_mem hcm
      have hi' : i < per.length := by omega
      have := hc i _ (List.getElem?_eq_getElem hi')
      rw [List.getElem?_eq_getElem hi] at this
      rw [Option.some.inj this]
      exact roundedCount_nonneg _ _ (div_nonneg (hnn _ (List.getElem_mem hi')) hr)
    cases he : pr.equally with
    | false =>
      obtain ⟨k, c, counts, hcm, -, hcl, hc, hbt⟩ := h2 he nm hm
      exact hbt.atProj hcl.symm (hcount counts _ _ (hx.ref c hcm).le hcl hc) (hx.ref c hcm).le b hb rfl
    | true =>
      obtain ⟨refs, counts, hf, hcl, hc, hbt⟩ := h3 he
      have hsum : 0 ≤ refs.sum := by
        apply List.sum_nonneg
        intro r hrm
        obtain ⟨i, hir, rfl⟩ := List.getElem_of_mem hrm
        obtain ⟨c, hcm, -, e⟩ := (List.forall₂_iff_get.mp hf).2 i (by rw [hf.length_eq]; exact hir) hir
        simp only [List.get_eq_getElem] at e
        rw [e]
        exact (hx.ref c hcm).le
      have hq : 0 ≤ refs.sum / (pr.products.length : K) := div_nonneg hsum (by positivity)
      exact (hbt nm hm).atProj hcl.symm (hcount counts _ _ hq hcl hc) hq b hb rfl
  · have := h1 nm hm
    exact ⟨[], by simp, by simp [this.1], by simp [this.2], by simp [this.2], by simp [this.2],
      by simp [this.2], by simp [this.2]⟩

theorem procLoop_spec (sq lg : K → K) (qe dt : K) (cs : List (XCloud K)) (mass : K) (b : XCloud K) (hb : b ∈ cs)
    (hx : XSane sq lg dt cs) (d : ℕ → XDraws K) (ps ps' : List (Proc K)) (k : ℕ) (a a' : (ℕ → NewMPs K) × (ℕ → K))
    (hp : ∀ pr ∈ ps, pr.Sane lg) (ha : ∀ nm, AtProj cs (a.1 nm))
    (h : procLoop sq lg qe dt cs mass b.mps.live d ps k a = .ok (ps', a')) :
    (∀ nm, AtProj cs (a'.1 nm)) ∧ (∀ nm, (∀ pr ∈ ps, nm ∉ pr.products) → a'.1 nm = a.1 nm) ∧
    ∃ r : List (Proc K × K), ps' = r.map (·.1) ∧
      List.Forall₂ (fun pr x => 0 ≤ x.2 ∧ ∃ k info, pr.generate sq lg qe dt cs mass b.mps.live (b.mps.live.map (speed sq)) true
        (d k) = .ok (x.1, info, x.2)) ps r ∧
      ∀ nm, a'.2 nm = a.2 nm + (List.zipWith (fun (pr : Proc K) (x : Proc K × K) => (pr.products.count nm : K) * x.2) ps r).sum := by
  induction ps generalizing k a ps' with
  | nil =>
    unfold procLoop at h; cases h
    exact ⟨ha, fun _ _ => rfl, [], rfl, List.Forall₂.nil, by simp⟩
  | cons pr ps ih =>
    unfold procLoop at h
    split at h
    · cases h
    · next pr' info dn hg =>
      split at h
      · cases h
      · next ps2 a2 hl =>
        cases h
        obtain ⟨hdn, hinfo⟩ := generate_atProj pr pr' sq lg qe dt cs mass b hb hx (hp pr List.mem_cons_self) _ info dn hg
        obtain ⟨i1, i2, r, i3, i4, i5⟩ := ih _ _ _ (fun q hq => hp q (List.mem_cons_of_mem _ hq))
          (fun nm => accProds_atProj cs info dn pr.products (fun q _ => hinfo q) a ha nm) hl
        refine ⟨i1, ?_, (pr', dn) :: r, by simp [i3], List.Forall₂.cons ⟨hdn, k, info, hg⟩ i4, ?_⟩
        · intro nm hnm
          rw [i2 nm (fun q hq => hnm q (List.mem_cons_of_mem _ hq)),
            accProds_outside _ _ _ _ _ (hnm pr List.mem_cons_self)]
        · intro nm
          rw [i5 nm, accProds_dn]
          simp only [List.zipWith_cons_cons, List.sum_cons]
          ring

/-- result of one step for the processes of one projectile: with projectiles present every process is called once,
without projectiles nothing happens -/
def ProjStep (sq lg : K → K) (qe dt : K) (cs : List (XCloud K)) (q : ℕ × List (Proc K)) (r : ℕ × List (Proc K × K)) : Prop :=
  r.1 = q.1 ∧ ∃ c ∈ cs, c.name = q.1 ∧
    (c.mps.nmp = 0 → r.2 = q.2.map (fun p => (p, 0))) ∧
    (0 < c.mps.nmp → List.Forall₂ (fun pr x => 0 ≤ x.2 ∧ ∃ d info,
      pr.generate sq lg qe dt cs c.mass c.mps.live (c.mps.live.map (speed sq)) true d = .ok (x.1, info, x.2)) q.2 r.2)

/-- ionisations of a step with product `nm` -/
def stepDn (nm : ℕ) (q : ℕ × List (Proc K)) (r : ℕ × List (Proc K × K)) : K :=
  (List.zipWith (fun (pr : Proc K) (x : Proc K × K) => (pr.products.count nm : K) * x.2) q.2 r.2).sum

theorem projLoop_spec (sq lg : K → K) (qe dt : K) (cs : List (XCloud K))
    (hx : XSane sq lg dt cs) (d : ℕ → ℕ → XDraws K) (qs qs' : List (ℕ × List (Proc K))) (j : ℕ)
    (a a' : (ℕ → NewMPs K) × (ℕ → K)) (hp : ∀ q ∈ qs, ∀ pr ∈ q.2, pr.Sane lg) (ha : ∀ nm, AtProj cs (a.1 nm))
    (h : projLoop sq lg qe dt cs d qs j a = .ok (qs', a')) :
    (∀ nm, AtProj cs (a'.1 nm)) ∧
    (∀ nm, nm ∉ qs.flatMap (fun q => q.2.flatMap (fun p => p.products)) → a'.1 nm = a.1 nm) ∧
    ∃ R : List (ℕ × List (Proc K × K)), qs' = R.map (fun r => (r.1, r.2.map (·.1))) ∧
      List.Forall₂ (ProjStep sq lg qe dt cs) qs R ∧
      ∀ nm, a'.2 nm = a.2 nm + (List.zipWith (stepDn nm) qs R).sum := by
  induction qs generalizing j a qs' with
  | nil =>
    unfold projLoop at h; cases h
    exact ⟨ha, fun _ _ => rfl, [], rfl, List.Forall₂.nil, by simp⟩
  | cons q qs ih =>
    unfold projLoop at h
    split at h
    · cases h
    · next c hc =>
      obtain ⟨hcm, hcn⟩ := cloudGet_mem cs _ c hc
      split at h
      · next hn =>
        split at h
        · cases h
        · next ps a1 hl =>
          split at h
          · cases h
          · next qs2 a2 hl2 =>
            cases h
            obtain ⟨p1, p2, r, p3, p4, p5⟩ := procLoop_spec sq lg qe dt cs c.mass c hcm hx (d j) q.2 ps 0 a a1
              (hp q List.mem_cons_self) ha hl
            obtain ⟨i1, i2, R, i3, i4, i5⟩ := ih _ _ _ (fun q' hq => hp q' (List.mem_cons_of_mem _ hq)) p1 hl2
            refine ⟨i1, ?_, (q.1, r) :: R, by simp [i3, p3], List.Forall₂.cons ⟨rfl, c, hcm, hcn, fun e => by omega,
              fun _ => ?_⟩ i4, ?_⟩
            · intro nm hnm
              rw [List.flatMap_cons, List.mem_append, not_or] at hnm
              rw [i2 nm hnm.2, p2 nm (fun pr hpr hm => hnm.1 (List.mem_flatMap.2 ⟨pr, hpr, hm⟩))]
            · refine p4.imp ?_
              rintro pr x ⟨h0, k, info, hg⟩
              exact ⟨h0, d j k, info, hg⟩
            · intro nm
              rw [i5 nm, p5 nm]
              simp only [List.zipWith_cons_cons, List.sum_cons, stepDn]
              ring
      · next hn =>
        split at h
        · cases h
        · next qs2 a2 hl2 =>
          cases h
          obtain ⟨i1, i2, R, i3, i4, i5⟩ := ih _ _ _ (fun q' hq => hp q' (List.mem_cons_of_mem _ hq)) ha hl2
          refine ⟨i1, ?_, (q.1, q.2.map (fun p => (p, 0))) :: R, by simp [i3, Function.comp_def],
            List.Forall₂.cons ⟨rfl, c, hcm, hcn, fun _ => rfl, fun e => by omega⟩ i4, ?_⟩
          · intro nm hnm
            rw [List.flatMap_cons, List.mem_append, not_or] at hnm
            exact i2 nm hnm.2
          · intro nm
            rw [i5 nm]
            have e0 : ∀ l : List (Proc K), (List.zipWith (fun (pr : Proc K) (x : Proc K × K) => (pr.products.count nm : K) * x.2) l
                (l.map (fun p => (p, (0 : K))))).sum = 0 := by
              intro l
              induction l with
              | nil => simp
              | cons p l ih => simp [ih]
            simp only [List.zipWith_cons_cons, List.sum_cons, stepDn]
            rw [e0]
            ring

theorem addLoop_spec (prods : List ℕ) (acc : ℕ → NewMPs K) (cs0 cs cs' : List (XCloud K)) (nelC nmpC nelC' nmpC' : ℕ → K)
    (hacc : ∀ nm, AtProj cs0 (acc nm)) (hwf : ∀ c ∈ cs, c.mps.WF) (hroom : ∀ c ∈ cs, c.mps.nmp < c.mps.cap)
    (hnd : (cs.map (·.name)).Nodup) (h : addLoop prods acc cs nelC nmpC = .ok (cs', nelC', nmpC')) :
    List.Forall₂ (fun c c' => c'.name = c.name ∧ c'.mass = c.mass ∧ c'.mps.WF ∧
      (c'.mps.cap = c.mps.cap ∧ SameSizes c.mps c'.mps) ∧
      ∃ new : List (Particle K), c'.mps.live = c.mps.live ++ new ∧
        (∀ p ∈ new, p .tl = -1 ∧ 0 ≤ p .nel ∧ ∃ b ∈ cs0, ∃ q ∈ b.mps.live, SamePlace p q) ∧
        (c.name ∉ prods → c' = c ∧ new = []) ∧
        (c.name ∈ prods → (new.length : ℤ) = (acc c.name).n) ∧
        nelC' c.name = nelC c.name + totalCharge new ∧ nmpC' c.name = nmpC c.name + (new.length : K)) cs cs' ∧
    ∀ nm, nm ∉ cs.map (·.name) → nelC' nm = nelC nm ∧ nmpC' nm = nmpC nm := by
  induction cs generalizing cs' nelC nmpC with
  | nil =>
    unfold addLoop at h; cases h
    exact ⟨List.Forall₂.nil, fun _ _ => ⟨rfl, rfl⟩⟩
  | cons c cs ih =>
    rw [List.map_cons, List.nodup_cons] at hnd
    unfold addLoop at h
    split at h
    · next hm =>
      split at h
      · cases h
      · next m hadd =>
        split at h
        · cases h
        · next cs2 r hl =>
          obtain ⟨nc, mc⟩ := r
          cases h
          obtain ⟨i1, i2⟩ := ih _ _ _ (fun q hq => hwf q (List.mem_cons_of_mem _ hq))
            (fun q hq => hroom q (List.mem_cons_of_mem _ hq)) hnd.2 hl
          have hne : ∀ q ∈ cs, q.name ≠ c.name := fun q hq e => hnd.1 (e ▸ List.mem_map_of_mem hq)
          obtain ⟨k1, k2⟩ := i2 c.name hnd.1
          rw [Function.update_self] at k1 k2
          obtain ⟨src, s1, s2, s3, s4, s5, s6, s7⟩ := hacc c.name
          have hn : (acc c.name).n.toNat = src.length := by rw [s2]; simp
          refine ⟨List.Forall₂.cons ?_ ?_, ?_⟩
          · by_cases hpos : 0 < (acc c.name).n
            · rw [if_pos hpos] at hadd
              obtain ⟨hlive, hw, hcp, -, -, -⟩ := addNew_live c.mps m (hwf c List.mem_cons_self) _ _ _
                (show xSrc (acc c.name) .x = .array ((acc c.name).arr .x) from rfl) (by rw [s6 .x (by decide), hn])
                (fun _ => hroom c List.mem_cons_self) (by
                  intro f _
                  cases f <;> simp [xSrc, Src.Fits, s6, hn]) hadd
              refine ⟨rfl, rfl, hw, ⟨hcp, (addNew_sameSizes _ _ _ _ hadd).1⟩, _, hlive, ?_, fun hno => absurd hm hno, ?_, ?_, ?_⟩
              · intro p hp
                obtain ⟨i, hi, rfl⟩ := List.getElem_of_mem hp
                have hi' : i < (acc c.name).n.toNat := by simpa [srcParticles] using hi
                refine ⟨?_, ?_, ?_⟩
                · cases htl : c.mps.tracked .tl with
                  | true => exact srcParticles_scalar _ _ (xSrc (acc c.name)) .tl (-1) htl rfl i hi'
                  | false => exact srcParticles_untracked _ _ _ .tl htl i hi'
                · rw [srcParticles_array _ _ (xSrc (acc c.name)) .nel _ (tracked_main _ _ (by decide)) rfl i hi'
                    (by rw [s6 .nel (by decide), hn])]
                  exact s7 _ (List.getElem_mem _)
                · obtain ⟨b, hb, hbl⟩ := s1 (src[i]'(by omega)) (List.getElem_mem _)
                  refine ⟨b, hb, _, hbl, ?_, ?_, ?_⟩
                  · rw [srcParticles_array _ _ (xSrc (acc c.name)) .x _ (tracked_main _ _ (by decide)) rfl i hi'
                      (by rw [s6 .x (by decide), hn])]
                    simp [s3]
                  · rw [srcParticles_array _ _ (xSrc (acc c.name)) .y _ (tracked_main _ _ (by decide)) rfl i hi'
                      (by rw [s6 .y (by decide), hn])]
                    simp [s4]
                  · rw [srcParticles_array _ _ (xSrc (acc c.name)) .z _ (tracked_main _ _ (by decide)) rfl i hi'
                      (by rw [s6 .z (by decide), hn])]
                    simp [s5]
              · intro _
                rw [srcParticles_length]; omega
              · rw [k1]
                congr 1
                unfold totalCharge
                rw [srcParticles_col _ _ _ .nel (by simp [xSrc, Src.Fits, s6, hn]), tracked_main _ _ (by decide)]
                rfl
              · rw [k2, srcParticles_length]
                congr 1
                rw [← Int.cast_natCast, Int.toNat_of_nonneg hpos.le]
            · rw [if_neg hpos] at hadd
              cases hadd
              have hz : src.length = 0 := by omega
              have hnil : (acc c.name).arr .nel = [] := List.eq_nil_of_length_eq_zero (by rw [s6 .nel (by decide), hz])
              refine ⟨rfl, rfl, hwf c List.mem_cons_self, ⟨rfl, SameSizes.refl _⟩, [], by simp, by simp, fun hno => absurd hm hno, ?_, ?_, ?_⟩
              · intro _; rw [s2, hz]; rfl
              · rw [k1, hnil]; simp [totalCharge]
              · rw [k2, s2, hz]; simp
          · apply List.Forall₂.imp _ ((List.forall₂_and_left (p := fun q => q ∈ cs) _ _).mpr ⟨fun q hq => hq, i1⟩)
            rintro q q' ⟨hq, h1, h2, h3, h3', new, h4, h5, h6, h7, h8, h9⟩
            rw [Function.update_of_ne (hne q hq)] at h8 h9
            exact ⟨h1, h2, h3, h3', new, h4, h5, h6, h7, h8, h9⟩
          · intro nm hnm
            rw [List.map_cons, List.mem_cons, not_or] at hnm
            have := i2 nm hnm.2
            rw [Function.update_of_ne hnm.1, Function.update_of_ne hnm.1] at this
            exact this
    · next hm =>
      split at h
      · cases h
      · next cs2 r hl =>
        obtain ⟨nc, mc⟩ := r
        cases h
        obtain ⟨i1, i2⟩ := ih _ _ _ (fun q hq => hwf q (List.mem_cons_of_mem _ hq))
          (fun q hq => hroom q (List.mem_cons_of_mem _ hq)) hnd.2 hl
        obtain ⟨k1, k2⟩ := i2 c.name hnd.1
        refine ⟨List.Forall₂.cons ⟨rfl, rfl, hwf c List.mem_cons_self, ⟨rfl, SameSizes.refl _⟩, [], by simp, by simp, fun _ => ⟨rfl, rfl⟩,
          fun hy => absurd hy hm, by simp [k1, totalCharge], by simp [k2]⟩ i1, ?_⟩
        intro nm hnm
        rw [List.map_cons, List.mem_cons, not_or] at hnm
        exact i2 nm hnm.2

/-- **C46**, the whole step (`Cross_Ionization.generate`): every cloud keeps its macroparticles and gains new ones,
each at the place of a macroparticle some cloud had before the step, of non-negative size, without impact history; clouds that are not
products are unchanged; the counters saved with the output increase by exactly the charge and the number of
macroparticles added; the counted ionisations are those removed from the targets. -/
theorem C46_step (x x' : XState K) (sq lg : K → K) (qe dt : K) (cs cs' : List (XCloud K)) (d : ℕ → ℕ → XDraws K)
    (hx : XSane sq lg dt cs) (hp : ∀ q ∈ x.projs, ∀ pr ∈ q.2, pr.Sane lg) (hnd : (cs.map (·.name)).Nodup)
    (h : x.generate sq lg qe dt cs d = .ok (x', cs')) :
    List.Forall₂ (fun c c' => c'.name = c.name ∧ c'.mass = c.mass ∧ c'.mps.WF ∧
      (c'.mps.cap = c.mps.cap ∧ SameSizes c.mps c'.mps) ∧
      ∃ new : List (Particle K), c'.mps.live = c.mps.live ++ new ∧
        (∀ p ∈ new, p .tl = -1 ∧ 0 ≤ p .nel ∧ ∃ b ∈ cs, ∃ q ∈ b.mps.live, SamePlace p q) ∧
        (c.name ∉ x.prods → c' = c ∧ new = []) ∧
        x'.nelC c.name = x.nelC c.name + totalCharge new ∧
        x'.nmpC c.name = x.nmpC c.name + (new.length : K)) cs cs' ∧
    ∃ R : List (ℕ × List (Proc K × K)), x'.projs = R.map (fun r => (r.1, r.2.map (·.1))) ∧
      List.Forall₂ (ProjStep sq lg qe dt cs) x.projs R ∧
      ∀ nm, x'.dnC nm = x.dnC nm + (List.zipWith (stepDn nm) x.projs R).sum := by
  unfold XState.generate at h
  split at h
  · cases h
  · next projs acc dnC hl =>
    split at h
    · cases h
    · next cs2 nelC nmpC ha =>
      cases h
      obtain ⟨p1, -, R, p3, p4, p5⟩ := projLoop_spec sq lg qe dt cs hx d x.projs projs 0 _ (acc, dnC) hp
        (fun nm => AtProj.empty cs) hl
      obtain ⟨a1, -⟩ := addLoop_spec x.prods acc cs cs cs' x.nelC x.nmpC nelC nmpC p1 hx.wf hx.room hnd ha
      refine ⟨a1.imp ?_, R, p3, p4, p5⟩
      rintro c c' ⟨h1, h2, h3, h3', new, h4, h5, h6, -, h8, h9⟩
      exact ⟨h1, h2, h3, h3', new, h4, h5, h6, h8, h9⟩

/-- **C46**, saved counters: reading them returns the values accumulated since the last reading and resets those of
that cloud only. -/
theorem C46_counters_read (x : XState K) (nm : ℕ) :
    (x.save nm).1 = (x.nelC nm, x.nmpC nm, x.dnC nm) ∧ (x.save nm).2.nelC nm = 0 ∧ (x.save nm).2.nmpC nm = 0 ∧
    (x.save nm).2.dnC nm = 0 ∧ (x.save nm).2.projs = x.projs ∧
    ∀ m ≠ nm, (x.save nm).2.nelC m = x.nelC m ∧ (x.save nm).2.nmpC m = x.nmpC m ∧ (x.save nm).2.dnC m = x.dnC m := by
  refine ⟨rfl, by simp [XState.save], by simp [XState.save], by simp [XState.save], rfl, fun m hm => ?_⟩
  simp [XState.save, Function.update_of_ne hm]

/-! ## C68: cross sections -/

theorem npDiff_length (l : List K) : (npDiff l).length = l.length - 1 := by
  induction l with
  | nil => rfl
  | cons a l ih =>
    cases l with
    | nil => rfl
    | cons b l => simp only [npDiff, List.length_cons] at *; omega

theorem npDiff_get (l : List K) (i : ℕ) (h : i + 1 < l.length) :
    (npDiff l)[i]? = some (l[i + 1] - l[i]) := by
  induction l generalizing i with
  | nil => simp at h
  | cons a l ih =>
    cases l with
    | nil => simp at h
    | cons b l =>
      cases i with
      | zero => simp [npDiff]
      | succ i =>
        have := ih i (by simpa using h)
        simp only [npDiff, List.getElem?_cons_succ, List.getElem_cons_succ]
        exact this

/-- the interpolation, in the scale of the table -/
theorem getSigma_interp (T : XTable K) (lg : K → K) (e : K) (h1 : ¬ e < T.eMin) (h2 : ¬ T.eMax < e) (hdx : 0 < T.dx)
    (hd : T.diff = npDiff T.sig ++ [0]) (hn : 0 < T.sig.length)
    (ha : T.x0 ≤ (if T.flagLog then lg e else e))
    (hb : (if T.flagLog then lg e else e) ≤ T.x0 + ((T.sig.length : K) - 1) * T.dx) :
    ∃ (i : ℕ) (r a b : K), 0 ≤ r ∧ r < 1 ∧ (if T.flagLog then lg e else e) = T.x0 + ((i : K) + r) * T.dx ∧
      T.sig[i]? = some a ∧ ((T.sig[i + 1]? = some b) ∨ (i + 1 = T.sig.length ∧ r = 0 ∧ b = a)) ∧
      T.getSigma lg e = .ok (lerp a b r * (1 / 10 ^ 4)) := by
  generalize hX : (if T.flagLog then lg e else e) = X at ha hb
  have ht0 : 0 ≤ (X - T.x0) / T.dx := div_nonneg (by linarith) hdx.le
  have htn : (X - T.x0) / T.dx ≤ (T.sig.length : K) - 1 := by rw [div_le_iff₀ hdx]; linarith
  have hxe : X = T.x0 + (X - T.x0) / T.dx * T.dx := by field_simp; ring
  generalize htt : (X - T.x0) / T.dx = t at ht0 htn hxe
  have htr : truncZ t = ⌊t⌋ := if_pos ht0
  have hf0 : 0 ≤ ⌊t⌋ := Int.floor_nonneg.2 ht0
  have hfn : ⌊t⌋ < (T.sig.length : ℤ) := by
    rw [Int.floor_lt]
    push_cast
    linarith
  obtain ⟨i, hi⟩ := Int.eq_ofNat_of_zero_le hf0
  have hil : i < T.sig.length := by omega
  have hfl := Int.floor_le t
  have hfl2 := Int.lt_floor_add_one t
  rw [hi] at hfl hfl2
  push_cast at hfl hfl2
  have hdl : i < T.diff.length := by rw [hd]; simp [npDiff_length]; omega
  have hg : T.getSigma lg e = .ok ((T.sig[i] + (t - (i : K)) * T.diff[i]) * (1 / 10 ^ 4)) := by
    unfold XTable.getSigma
    rw [if_neg h1, if_neg h2]
    dsimp only
    rw [hX, htt, htr, hi]
    have e1 : pyGet T.sig (i : ℤ) = .ok T.sig[i] := by
      unfold pyGet; simp only [Int.not_ofNat_neg, if_false, Int.toNat_natCast, List.getElem?_eq_getElem hil]
    have e2 : pyGet T.diff (i : ℤ) = .ok T.diff[i] := by
      unfold pyGet; simp only [Int.not_ofNat_neg, if_false, Int.toNat_natCast, List.getElem?_eq_getElem hdl]
    rw [e1, e2]
    simp
  by_cases hlast : i + 1 < T.sig.length
  · have e3 : T.diff[i] = T.sig[i + 1] - T.sig[i] := by
      have h3 : T.diff[i]? = some (T.sig[i + 1] - T.sig[i]) := by
        rw [hd, List.getElem?_append_left (by rw [npDiff_length]; omega)]
        exact npDiff_get _ _ hlast
      rw [List.getElem?_eq_getElem hdl] at h3
      exact Option.some.inj h3
    refine ⟨i, t - i, T.sig[i], T.sig[i + 1], by linarith, by linarith, ?_, List.getElem?_eq_getElem hil,
      Or.inl (List.getElem?_eq_getElem hlast), ?_⟩
    · rw [hxe]; ring
    · rw [hg, e3]; unfold lerp; congr 2; ring
  · have hie : i + 1 = T.sig.length := by omega
    have hti : t = (i : K) := by
      have : (T.sig.length : K) = (i : K) + 1 := by rw [← hie]; push_cast; ring
      rw [this] at htn
      linarith
    refine ⟨i, 0, T.sig[i], T.sig[i], le_refl _, by norm_num, ?_, List.getElem?_eq_getElem hil, Or.inr ⟨hie, rfl, rfl⟩, ?_⟩
    · rw [hxe, hti]; ring
    · rw [hg, hti]; unfold lerp; congr 2; ring

/-- the grid `x0, x0 + dx, ...` of `n` points -/
def uniformGrid (x0 dx : K) (n : ℕ) : List K := (List.range n).map (fun i : ℕ => x0 + (i : K) * dx)

theorem uniformGrid_diff (x0 dx : K) (n : ℕ) : npDiff (uniformGrid x0 dx (n + 1)) = List.replicate n dx := by
  apply List.ext_getElem?
  intro i
  by_cases hi : i < n
  · rw [npDiff_get _ _ (by simp [uniformGrid]; omega)]
    simp only [uniformGrid, List.getElem_map, List.getElem_range]
    rw [List.getElem?_eq_getElem (by simpa using hi)]
    simp only [List.getElem_replicate]
    congr 1
    push_cast
    ring
  · rw [List.getElem?_eq_none (by simp [npDiff_length, uniformGrid]; omega), List.getElem?_eq_none (by simp; omega)]

theorem uniformStep_grid (x0 dx : K) (n : ℕ) (m : ℤ) (hm : dx = (m : K) / 10 ^ 8) :
    uniformStep (uniformGrid x0 dx (n + 2)) = .ok (some dx) := by
  unfold uniformStep
  rw [uniformGrid_diff, List.map_replicate, hm, roundDec_exact, List.replicate_succ]
  simp

theorem listMin_le (l : List K) (a : K) (h : a ∈ l) : listMin l ≤ a := by
  induction l with
  | nil => simp at h
  | cons b l ih =>
    cases l with
    | nil => simp at h; simp [listMin, h]
    | cons c l =>
      rcases List.mem_cons.1 h with e | e
      · subst e; exact min_le_left _ _
      · exact (min_le_right _ _).trans (ih e)

theorem listMin_mem (l : List K) (h : l ≠ []) : listMin l ∈ l := by
  induction l with
  | nil => exact absurd rfl h
  | cons b l ih =>
    cases l with
    | nil => simp [listMin]
    | cons c l =>
      show min b (listMin (c :: l)) ∈ _
      rcases min_choice b (listMin (c :: l)) with e | e
      · rw [e]; exact List.mem_cons_self
      · rw [e]; exact List.mem_cons_of_mem _ (ih (by simp))

theorem le_listMax (l : List K) (a : K) (h : a ∈ l) : a ≤ listMax l := by
  induction l with
  | nil => simp at h
  | cons b l ih =>
    cases l with
    | nil => simp at h; simp [listMax, h]
    | cons c l =>
      rcases List.mem_cons.1 h with e | e
      · subst e; exact le_max_left _ _
      · exact (ih e).trans (le_max_right _ _)

theorem listMax_mem (l : List K) (h : l ≠ []) : listMax l ∈ l := by
  induction l with
  | nil => exact absurd rfl h
  | cons b l ih =>
    cases l with
    | nil => simp [listMax]
    | cons c l =>
      show max b (listMax (c :: l)) ∈ _
      rcases max_choice b (listMax (c :: l)) with e | e
      · rw [e]; exact List.mem_cons_self
      · rw [e]; exact List.mem_cons_of_mem _ (ih (by simp))

theorem listMin_eq (l : List K) (a : K) (h : a ∈ l) (hm : ∀ b ∈ l, a ≤ b) : listMin l = a :=
  le_antisymm (listMin_le l a h) (hm _ (listMin_mem l (List.ne_nil_of_mem h)))

theorem listMax_eq (l : List K) (a : K) (h : a ∈ l) (hm : ∀ b ∈ l, b ≤ a) : listMax l = a :=
  le_antisymm (hm _ (listMax_mem l (List.ne_nil_of_mem h))) (le_listMax l a h)

/-- **C68**, linear scale: for a table on a uniform energy grid whose step has at most eight decimals, the process
accepts the table, the cross section is zero below the first and above the last energy, and between them it is the
linear interpolation of the two neighbouring entries (the entry itself at a node). -/
theorem C68_linear_table (lg : K → K) (e0 de : K) (n : ℕ) (m : ℤ) (hm : de = (m : K) / 10 ^ 8) (hde : 0 < de)
    (sig : List K) (hs : sig.length = n + 2) :
    ∃ T, mkXTable lg (uniformGrid e0 de (n + 2)) sig = .ok T ∧ ∀ e : K,
      ((e < e0 ∨ e0 + ((n : K) + 1) * de < e) → T.getSigma lg e = .ok 0) ∧
      (e0 ≤ e → e ≤ e0 + ((n : K) + 1) * de →
        ∃ (i : ℕ) (r a b : K), 0 ≤ r ∧ r < 1 ∧ e = e0 + ((i : K) + r) * de ∧
        sig[i]? = some a ∧ (sig[i + 1]? = some b ∨ (i + 1 = sig.length ∧ r = 0 ∧ b = a)) ∧
        T.getSigma lg e = .ok (lerp a b r * (1 / 10 ^ 4))) := by
  have hmem : ∀ b ∈ uniformGrid e0 de (n + 2), ∃ i : ℕ, i < n + 2 ∧ b = e0 + (i : K) * de := by
    intro b hb
    obtain ⟨i, hi, rfl⟩ := List.mem_map.1 hb
    exact ⟨i, by simpa using hi, rfl⟩
  have hmin : listMin (uniformGrid e0 de (n + 2)) = e0 := by
    apply listMin_eq
    · exact List.mem_map.2 ⟨0, by simp, by simp⟩
    · intro b hb
      obtain ⟨i, -, rfl⟩ := hmem b hb
      have : 0 ≤ (i : K) * de := by positivity
      linarith
  have hmax : listMax (uniformGrid e0 de (n + 2)) = e0 + ((n : K) + 1) * de := by
    apply listMax_eq
    · exact List.mem_map.2 ⟨n + 1, by simp, by push_cast; ring⟩
    · intro b hb
      obtain ⟨i, hi, rfl⟩ := hmem b hb
      have : (i : K) ≤ (n : K) + 1 := by
        have : i ≤ n + 1 := by omega
        exact_mod_cast this
      nlinarith
  refine ⟨⟨e0, e0 + ((n : K) + 1) * de, e0, de, false, sig, npDiff sig ++ [0]⟩, ?_, fun e => ⟨?_, ?_⟩⟩
  · unfold mkXTable
    rw [uniformStep_grid e0 de n m hm, hmin, hmax]
  · intro h
    unfold XTable.getSigma
    dsimp only
    by_cases h1 : e < e0
    · rw [if_pos h1]
    · rw [if_neg h1, if_pos (h.resolve_left h1)]
  · intro h1 h2
    have := getSigma_interp ⟨e0, e0 + ((n : K) + 1) * de, e0, de, false, sig, npDiff sig ++ [0]⟩ lg e
      (by simpa using h1) (by simpa using h2) hde rfl (by dsimp only; omega) (by simpa using h1) (by
        dsimp only
        rw [hs]
        push_cast
        linarith)
    simpa using this

/-- **C68**, logarithmic scale: the same for tables whose energies are uniform in the logarithm, interpolated in the
logarithm of the energy. -/
theorem C68_log_table (lg : K → K) (hlg : StrictMonoOn lg {x | 0 < x}) (x0 dx : K) (n : ℕ) (m : ℤ) (hm : dx = (m : K) / 10 ^ 8)
    (hdx : 0 < dx) (en : List K) (hpos : ∀ e ∈ en, 0 < e) (hen : en.map lg = uniformGrid x0 dx (n + 2))
    (hnl : uniformStep en = .ok none) (sig : List K) (hs : sig.length = n + 2) :
    ∃ T, mkXTable lg en sig = .ok T ∧ ∀ e : K, 0 < e →
      ((lg e < x0 ∨ x0 + ((n : K) + 1) * dx < lg e) → T.getSigma lg e = .ok 0) ∧
      (x0 ≤ lg e → lg e ≤ x0 + ((n : K) + 1) * dx →
        ∃ (i : ℕ) (r a b : K), 0 ≤ r ∧ r < 1 ∧ lg e = x0 + ((i : K) + r) * dx ∧
        sig[i]? = some a ∧ (sig[i + 1]? = some b ∨ (i + 1 = sig.length ∧ r = 0 ∧ b = a)) ∧
        T.getSigma lg e = .ok (lerp a b r * (1 / 10 ^ 4))) := by
  have hlen : en.length = n + 2 := by
    have := congrArg List.length hen
    simpa [uniformGrid] using this
  have hne : en ≠ [] := by
    intro e
    rw [e] at hlen
    simp at hlen
  have hget : ∀ (i : ℕ) (hi : i < en.length), lg en[i] = x0 + (i : K) * dx := by
    intro i hi
    have h1 : (en.map lg)[i]? = (uniformGrid x0 dx (n + 2))[i]? := by rw [hen]
    rw [List.getElem?_map, List.getElem?_eq_getElem hi, List.getElem?_eq_getElem (by simp [uniformGrid]; omega)] at h1
    simpa [uniformGrid] using h1
  have hle : ∀ (i j : ℕ) (hi : i < en.length) (hj : j < en.length), i ≤ j → en[i] ≤ en[j] := by
    intro i j hi hj hij
    by_contra hlt
    have := hlg (hpos _ (List.getElem_mem hj)) (hpos _ (List.getElem_mem hi)) (not_le.1 hlt)
    rw [hget, hget] at this
    have h2 : (i : K) ≤ (j : K) := by exact_mod_cast hij
    nlinarith
  have hmin : listMin en = en[0] := by
    apply listMin_eq _ _ (List.getElem_mem _)
    intro b hb
    obtain ⟨i, hi, rfl⟩ := List.getElem_of_mem hb
    exact hle 0 i _ hi (Nat.zero_le _)
  have hmax : listMax en = en[n + 1] := by
    apply listMax_eq _ _ (List.getElem_mem _)
    intro b hb
    obtain ⟨i, hi, rfl⟩ := List.getElem_of_mem hb
    exact hle i (n + 1) hi _ (by omega)
  have hl0 : lg en[0] = x0 := by rw [hget]; simp
  have hln : lg en[n + 1] = x0 + ((n : K) + 1) * dx := by rw [hget]; push_cast; ring
  refine ⟨⟨en[0], en[n + 1], x0, dx, true, sig, npDiff sig ++ [0]⟩, ?_, fun e he => ⟨?_, ?_⟩⟩
  · unfold mkXTable
    rw [hnl]
    dsimp only
    rw [hen, uniformStep_grid x0 dx n m hm, hmin, hmax, hl0]
  · intro h
    unfold XTable.getSigma
    dsimp only
    by_cases h1 : e < en[0]
    · rw [if_pos h1]
    · rw [if_neg h1, if_pos ?_]
      rcases h with h | h
      · exfalso
        rcases lt_or_eq_of_le (not_lt.1 h1) with h2 | h2
        · have := hlg (hpos _ (List.getElem_mem _)) he h2
          rw [hl0] at this
          linarith
        · rw [← h2, hl0] at h
          exact lt_irrefl _ h
      · by_contra h2
        rcases lt_or_eq_of_le (not_lt.1 h2) with h3 | h3
        · have := hlg he (hpos _ (List.getElem_mem _)) h3
          rw [hln] at this
          linarith
        · rw [h3, hln] at h
          exact lt_irrefl _ h
  · intro h1 h2
    have g1 : ¬ e < en[0] := by
      intro hlt
      have := hlg he (hpos _ (List.getElem_mem _)) hlt
      rw [hl0] at this
      linarith
    have g2 : ¬ en[n + 1] < e := by
      intro hlt
      have := hlg (hpos _ (List.getElem_mem _)) he hlt
      rw [hln] at this
      linarith
    have := getSigma_interp ⟨en[0], en[n + 1], x0, dx, true, sig, npDiff sig ++ [0]⟩ lg e g1 g2 hdx rfl
      (by dsimp only; omega) (by simpa using h1) (by
        dsimp only
        rw [hs, if_pos rfl]
        push_cast
        linarith)
    simpa using this

/-- **C68**: with non-negative entries the cross section is never negative, at any energy (linear tables). -/
theorem C68_nonneg (lg : K → K) (e0 de : K) (n : ℕ) (m : ℤ) (hm : de = (m : K) / 10 ^ 8) (hde : 0 < de)
    (sig : List K) (hs : sig.length = n + 2) (h0 : ∀ s ∈ sig, 0 ≤ s) (T : XTable K)
    (hT : mkXTable lg (uniformGrid e0 de (n + 2)) sig = .ok T) (e : K) :
    ∃ s, T.getSigma lg e = .ok s ∧ 0 ≤ s := by
  obtain ⟨T', hT', h⟩ := C68_linear_table lg e0 de n m hm hde sig hs
  rw [hT] at hT'
  cases hT'
  obtain ⟨h1, h2⟩ := h e
  by_cases ha : e0 ≤ e
  · by_cases hb : e ≤ e0 + ((n : K) + 1) * de
    · obtain ⟨i, r, a, b, r0, r1, -, ea, eb, es⟩ := h2 ha hb
      refine ⟨_, es, ?_⟩
      have p1 := h0 a (List.mem_of_getElem? ea)
      have p2 : 0 ≤ b := by
        rcases eb with eb | ⟨-, -, eb⟩
        · exact h0 b (List.mem_of_getElem? eb)
        · rw [eb]; exact p1
      have : 0 ≤ 1 - r := by linarith
      unfold lerp
      positivity
    · exact ⟨0, h1 (Or.inr (not_le.1 hb)), le_refl _⟩
  · exact ⟨0, h1 (Or.inl (not_le.1 ha)), le_refl _⟩

/-- **C68**: tables that are uniform neither in the energy nor in its logarithm are refused. -/
theorem C68_refused (lg : K → K) (en sig : List K) (h1 : uniformStep en = .ok none)
    (h2 : uniformStep (en.map lg) = .ok none) : mkXTable lg en sig = .error .valueError := by
  unfold mkXTable
  rw [h1]
  dsimp only
  rw [h2]

/-- the two grids of `uniformStep` are those whose rounded steps are all the same -/
theorem C68_uniform_iff (xs : List K) (h : 2 ≤ xs.length) :
    (∃ d, uniformStep xs = .ok (some d) ∧ ∀ e ∈ npDiff xs, roundDec 8 e = d) ∨
    (uniformStep xs = .ok none ∧ ∃ e ∈ npDiff xs, ∃ e' ∈ npDiff xs, roundDec 8 e ≠ roundDec 8 e') := by
  unfold uniformStep
  have hl := npDiff_length xs
  cases hd : (npDiff xs).map (roundDec 8) with
  | nil =>
    have := congrArg List.length hd
    simp at this
    rw [this] at hl
    simp at hl
    omega
  | cons d ds =>
    have hdm : d ∈ (npDiff xs).map (roundDec 8) := by rw [hd]; exact List.mem_cons_self
    by_cases hany : (d :: ds).any (fun e => decide (e ≠ d)) = true
    · right
      dsimp only
      rw [if_pos hany]
      refine ⟨rfl, ?_⟩
      obtain ⟨e, he, hne⟩ := List.any_eq_true.1 hany
      rw [← hd] at he
      obtain ⟨a, ha, rfl⟩ := List.mem_map.1 he
      obtain ⟨b, hb, rfl⟩ := List.mem_map.1 hdm
      exact ⟨a, ha, b, hb, by simpa using hne⟩
    · left
      dsimp only
      rw [if_neg hany]
      refine ⟨d, rfl, fun e he => ?_⟩
      by_contra hne
      apply hany
      rw [List.any_eq_true]
      refine ⟨roundDec 8 e, ?_, by simpa using hne⟩
      rw [← hd]
      exact List.mem_map_of_mem he

/-! ## concrete cases -/

/-- a table with three energies -/
def exXTable : XTable ℚ := ⟨0, 800, 0, 400, false, [0, 10000, 30000], [10000, 20000, 0]⟩

theorem exXTable_eq : mkXTable (id : ℚ → ℚ) (uniformGrid 0 400 3) [0, 10000, 30000] = .ok exXTable := by decide +kernel

theorem exXTable_nonneg (e s : ℚ) (h : exXTable.getSigma id e = .ok s) : 0 ≤ s := by
  obtain ⟨s', h1, h2⟩ := C68_nonneg (id : ℚ → ℚ) 0 400 1 (400 * 10 ^ 8) (by norm_num) (by norm_num) [0, 10000, 30000] rfl
    (by simp) exXTable exXTable_eq e
  rw [h] at h1
  cases h1
  exact h2

example : exXTable.getSigma id 600 = .ok 2 := by decide +kernel

example : mkXTable (id : ℚ → ℚ) [0, 1, 3] [0, 0, 0] = .error .valueError :=
  C68_refused _ _ _ (by decide +kernel) (by decide +kernel)

/-- a process with two products and 100 target particles -/
def exProc (eq : Bool) : Proc ℚ := ⟨10, 100, 10, 3, eq, [1, 2], exXTable⟩

/-- three clouds: `toy` as projectile, two product clouds with different reference sizes -/
def exClouds : List (XCloud ℚ) :=
  [⟨0, 2, toy⟩, ⟨1, 1, { toy with nmp := 0, ref := 4 }⟩, ⟨2, 1, { toy with nmp := 1, ref := 8 }⟩]

def exXDraws : XDraws ℚ := ⟨fun _ _ => 1 / 2, fun _ _ _ => 1 / 4⟩

example : ∃ r, (exProc true).generate (fun a => |a|) id 1 (1 / 1000) exClouds 2 toy.live (toy.live.map (speed (fun a => |a|)))
    true exXDraws = .ok r ∧ r.1.nTarget = 92317 / 1000 ∧ r.2.2 = 307313 / 40000 ∧ (r.2.1 1).n = 1 ∧ (r.2.1 2).n = 1 ∧
    (r.2.1 2).arr .x = [1] := by
  refine exists_ok ?_
  decide +kernel

example : ∃ r, (⟨[(0, [exProc false])], 0, 0, 0⟩ : XState ℚ).generate (fun a => |a|) id 1 (1 / 1000) exClouds
    (fun _ _ => exXDraws) = .ok r ∧ r.1.nelC 1 = 8 ∧ r.1.nmpC 2 = 1 ∧ r.2.map (fun c : XCloud ℚ => c.mps.nmp) = [3, 2, 2] := by
  refine exists_ok ?_
  decide +kernel

/-- **C46** fails when a step ionises more than what is left: the target density becomes negative, and the next
step then "creates" a negative number of ionisations, refilling the target. -/
theorem C46_negative_violated : ∃ (pr : Proc ℚ) (p1 p2 : Proc ℚ) (i1 i2 : ℕ → NewMPs ℚ) (dn1 dn2 : ℚ),
    pr.Sane id ∧ pr.dens = pr.nTarget / pr.area ∧
    pr.generate (fun a => |a|) id 1 1 exClouds 2 toy.live (toy.live.map (speed (fun a => |a|))) true exXDraws = .ok (p1, i1, dn1) ∧
    p1.generate (fun a => |a|) id 1 1 exClouds 2 toy.live (toy.live.map (speed (fun a => |a|))) true exXDraws = .ok (p2, i2, dn2) ∧
    p1.dens < 0 ∧ dn2 < 0 ∧ p1.nTarget < p2.nTarget := by
  have h : ∃ r, (exProc true).generate (fun a => |a|) id 1 1 exClouds 2 toy.live (toy.live.map (speed (fun a => |a|))) true
      exXDraws = .ok r ∧ (match r.1.generate (fun a => |a|) id 1 1 exClouds 2 toy.live
        (toy.live.map (speed (fun a => |a|))) true exXDraws with
        | .ok r2 => decide (r.1.dens < 0 ∧ r2.2.2 < 0 ∧ r.1.nTarget < r2.1.nTarget)
        | .error _ => false) = true := exists_ok (by decide +kernel)
  obtain ⟨⟨p1, i1, dn1⟩, e1, h⟩ := h
  split at h
  · next r2 e2 =>
    obtain ⟨p2, i2, dn2⟩ := r2
    exact ⟨exProc true, p1, p2, i1, i2, dn1, dn2, ⟨by decide +kernel, exXTable_nonneg⟩, by decide +kernel, e1, e2,
      of_decide_eq_true h⟩
  · cases h

/-- the hypotheses of `C46_step` hold for the example -/
example : XSane (fun a : ℚ => |a|) id (1 / 1000) exClouds ∧ (exProc true).Sane id ∧ (exClouds.map (·.name)).Nodup := by
  refine ⟨⟨fun a => abs_nonneg a, by norm_num, ?_, ?_, ?_, ?_⟩, ⟨by decide +kernel, exXTable_nonneg⟩, by decide +kernel⟩
  · intro c hc
    simp only [exClouds, List.mem_cons, List.not_mem_nil, or_false] at hc
    rcases hc with rfl | rfl | rfl <;> exact ⟨by intro f; cases f <;> rfl, by decide⟩
  · decide +kernel
  · decide +kernel
  · decide +kernel

end PyECLOUD
