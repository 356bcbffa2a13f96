import Verif.Model.CrossSetup
import Verif.Props.CrossIon

/-! # Construction of the cross ionisation (C116) and its extracted cross sections (C117) -/

namespace PyECLOUD

set_option linter.unusedSectionVars false

variable {K : Type} [Field K] [LinearOrder K] [IsStrictOrderedRing K] [FloorRing K]

/-- The process built from a definition: all of the target present, nothing used up. -/
def BuiltFrom (area : K) (names : List ℕ) (d : ProcDef K) (p : Proc K) : Prop :=
  p.dens = d.dens ∧ p.nTarget = d.dens * area ∧ p.area = area ∧ p.eInit = d.eInit ∧ p.products = d.products ∧
    (p.equally = true ↔ d.equally = some true) ∧ ∀ nm ∈ d.products, nm ∈ names

theorem forall2_right {α β : Type} {R : α → β → Prop} {l : List α} {l' : List β} (h : List.Forall₂ R l l')
    (b : β) (hb : b ∈ l') : ∃ a ∈ l, R a b := by
  induction h with
  | nil => simp at hb
  | @cons a c l l' hac _ ih =>
    rcases List.mem_cons.1 hb with rfl | hb
    · exact ⟨a, by simp, hac⟩
    · obtain ⟨x, h1, h2⟩ := ih hb
      exact ⟨x, by simp [h1], h2⟩

theorem forall2_left {α β : Type} {R : α → β → Prop} {l : List α} {l' : List β} (h : List.Forall₂ R l l')
    (a : α) (ha : a ∈ l) : ∃ b ∈ l', R a b := by
  obtain ⟨b, h1, h2⟩ := forall2_right h.flip a ha
  exact ⟨b, h1, h2⟩

theorem mkProc_spec (lg : K → K) (names : List ℕ) (area : K) (d : ProcDef K) (p : Proc K × Bool)
    (h : mkProc lg names area d = .ok p) :
    BuiltFrom area names d p.1 ∧ (p.2 = false ↔ d.extract = some false) := by
  unfold mkProc at h
  split at h
  · next hp =>
    split at h
    · cases h
    · cases h
      refine ⟨⟨rfl, rfl, rfl, rfl, rfl, ?_, ?_⟩, ?_⟩
      · cases hq : d.equally <;> simp
      · intro nm hnm
        have := List.all_eq_true.1 hp nm hnm
        simpa using this
      · cases hq : d.extract <;> simp
  · cases h

theorem mkProcs_spec (lg : K → K) (names : List ℕ) (area : K) (ds : List (ProcDef K)) (ps : List (Proc K × Bool))
    (h : mkProcs lg names area ds = .ok ps) :
    List.Forall₂ (fun d p => BuiltFrom area names d p.1 ∧ (p.2 = false ↔ d.extract = some false)) ds ps := by
  induction ds generalizing ps with
  | nil => simp only [mkProcs, Except.ok.injEq] at h; subst h; exact .nil
  | cons d l ih =>
    simp only [mkProcs] at h
    split at h
    · cases h
    · next p hp =>
      split at h
      · cases h
      · next ps' hps =>
        cases h
        exact .cons (mkProc_spec lg names area d p hp) (ih _ hps)

theorem mkProjs_spec (lg : K → K) (names : List ℕ) (area : K) (defs : List (ℕ × List (ProcDef K)))
    (r : List (ℕ × List (Proc K × Bool))) (h : mkProjs lg names area defs = .ok r) :
    List.Forall₂ (fun q p => q.1 = p.1 ∧ q.1 ∈ names ∧
      List.Forall₂ (fun d p => BuiltFrom area names d p.1 ∧ (p.2 = false ↔ d.extract = some false)) q.2 p.2) defs r := by
  induction defs generalizing r with
  | nil => simp only [mkProjs, Except.ok.injEq] at h; subst h; exact .nil
  | cons q l ih =>
    simp only [mkProjs] at h
    split at h
    · next hq =>
      split at h
      · cases h
      · next ps hps =>
        split at h
        · cases h
        · next r' hr =>
          cases h
          exact .cons ⟨rfl, hq, mkProcs_spec lg names area q.2 ps hps⟩ (ih _ hr)
    · cases h

theorem generate_false (pr pr' : Proc K) (sq lg : K → K) (qe dt : K) (cs : List (XCloud K)) (mass : K)
    (proj : List (Particle K)) (v : List K) (d : XDraws K) (info : ℕ → NewMPs K) (dn : K)
    (h : pr.generate sq lg qe dt cs mass proj v false d = .ok (pr', info, dn)) : pr' = pr := by
  unfold Proc.generate at h
  split at h
  · cases h
  · dsimp only at h
    split at h
    · cases h
    · cases h; rfl

theorem extractRow_proc (pr pr' : Proc K) (sq lg : K → K) (qe dt : K) (cs : List (XCloud K)) (mass ref : K)
    (nRep : ℕ) (e : K) (d : XDraws K) (row : SigmaRow K)
    (h : pr.extractRow sq lg qe dt cs mass ref nRep e d = .ok (pr', row)) : pr' = pr := by
  unfold Proc.extractRow at h
  split at h
  · cases h
  · dsimp only at h
    split at h
    · cases h
    · next hg => cases h; exact generate_false _ _ _ _ _ _ _ _ _ _ _ _ _ hg

theorem extractSigma_proc (sq lg : K → K) (qe dt : K) (cs : List (XCloud K)) (mass ref : K) (nRep : ℕ)
    (d : ℕ → XDraws K) (i : ℕ) (es : List K) (pr pr' : Proc K) (rows : List (SigmaRow K))
    (h : Proc.extractSigma sq lg qe dt cs mass ref nRep d i es pr = .ok (pr', rows)) :
    pr' = pr ∧ rows.length = es.length ∧
      ∀ (k : ℕ) (e : K) (r : SigmaRow K), es[k]? = some e → rows[k]? = some r →
        pr.extractRow sq lg qe dt cs mass ref nRep e (d (i + k)) = .ok (pr, r) := by
  induction es generalizing i pr rows with
  | nil => simp only [Proc.extractSigma, Except.ok.injEq, Prod.mk.injEq] at h; obtain ⟨h1, h2⟩ := h; subst h1 h2; simp
  | cons e l ih =>
    simp only [Proc.extractSigma] at h
    split at h
    · cases h
    · next p1 r hr =>
      split at h
      · cases h
      · next p2 rs hrs =>
        cases h
        have e1 := extractRow_proc _ _ _ _ _ _ _ _ _ _ _ _ _ hr
        subst e1
        obtain ⟨a, b, c⟩ := ih _ _ _ hrs
        refine ⟨a, by simp [b], ?_⟩
        intro k e' r' h1 h2
        cases k with
        | zero =>
          simp only [List.getElem?_cons_zero, Option.some.injEq] at h1 h2
          subst h1 h2
          exact hr
        | succ k =>
          simp only [List.getElem?_cons_succ] at h1 h2
          have := c k e' r' h1 h2
          rw [show i + (k + 1) = i + 1 + k by omega]
          exact this

theorem extractProcs_proc (sq lg : K → K) (qe dt : K) (cs : List (XCloud K)) (mass ref : K) (nRep : ℕ) (es : List K)
    (d : ℕ → ℕ → XDraws K) (i : ℕ) (ps ps' : List (Proc K × Bool)) (rows : List (List (SigmaRow K)))
    (h : extractProcs sq lg qe dt cs mass ref nRep es d i ps = .ok (ps', rows)) :
    ps' = ps ∧ rows.length = (ps.filter (fun p => p.2)).length := by
  induction ps generalizing i ps' rows with
  | nil => simp only [extractProcs, Except.ok.injEq, Prod.mk.injEq] at h; obtain ⟨h1, h2⟩ := h; subst h1 h2; simp
  | cons p l ih =>
    obtain ⟨pr, b⟩ := p
    cases b with
    | false =>
      simp only [extractProcs] at h
      split at h
      · cases h
      · next hl => cases h; obtain ⟨a, c⟩ := ih _ _ _ hl; exact ⟨by rw [a], by simpa using c⟩
    | true =>
      simp only [extractProcs] at h
      split at h
      · cases h
      · next p1 r hr =>
        split at h
        · cases h
        · next hl =>
          cases h
          obtain ⟨a, c⟩ := ih _ _ _ hl
          obtain ⟨e1, _⟩ := extractSigma_proc _ _ _ _ _ _ _ _ _ _ _ _ _ _ hr
          exact ⟨by rw [a, e1], by simpa using c⟩

theorem extractAll_proc (sq lg : K → K) (qe dt : K) (cs : List (XCloud K)) (nRep : ℕ) (es : List K)
    (d : ℕ → ℕ → ℕ → XDraws K) (i : ℕ) (ps ps' : List (ℕ × List (Proc K × Bool))) (rows : List (List (SigmaRow K)))
    (h : extractAll sq lg qe dt cs nRep es d i ps = .ok (ps', rows)) :
    ps' = ps ∧ rows.length = ((ps.flatMap Prod.snd).filter (fun p => p.2)).length := by
  induction ps generalizing i ps' rows with
  | nil => simp only [extractAll, Except.ok.injEq, Prod.mk.injEq] at h; obtain ⟨h1, h2⟩ := h; subst h1 h2; simp
  | cons q l ih =>
    simp only [extractAll] at h
    split at h
    · cases h
    · split at h
      · cases h
      · next p1 a ha =>
        split at h
        · cases h
        · next r b hb =>
          cases h
          obtain ⟨e1, e2⟩ := extractProcs_proc _ _ _ _ _ _ _ _ _ _ _ _ _ _ ha
          obtain ⟨e3, e4⟩ := ih _ _ _ hb
          refine ⟨by rw [e1, e3], ?_⟩
          simp [e2, e4]

/-- **C116.** If the construction succeeds, every projectile and every product is the name of a cloud, the processes are
those of the definitions with the whole target present (density times chamber area) although the extraction of the
cross sections has generated from them, the counters are zero, and one set of curves was saved for every process for which the
extraction is not switched off. -/
theorem C116_constructed (sq lg : K → K) (qe dt : K) (cs : List (XCloud K)) (area : K)
    (defs : List (ℕ × List (ProcDef K))) (nRep : ℕ) (es : List K) (d : ℕ → ℕ → ℕ → XDraws K) (x : XState K)
    (rows : List (List (SigmaRow K))) (h : mkCross sq lg qe dt cs area defs nRep es d = .ok (x, rows)) :
    List.Forall₂ (fun q p => q.1 = p.1 ∧ (∃ c ∈ cs, c.name = q.1) ∧
      List.Forall₂ (BuiltFrom area (cs.map fun c => c.name)) q.2 p.2) defs x.projs ∧
    (∀ nm, x.nelC nm = 0 ∧ x.nmpC nm = 0 ∧ x.dnC nm = 0) ∧
    rows.length = ((defs.flatMap Prod.snd).filter (fun d => decide (d.extract ≠ some false))).length := by
  unfold mkCross at h
  split at h
  · cases h
  · next ps hps =>
    split at h
    · cases h
    · next ps' rows' hx =>
      cases h
      have hm := mkProjs_spec lg _ area defs ps hps
      obtain ⟨e1, e2⟩ := extractAll_proc _ _ _ _ _ _ _ _ _ _ _ _ hx
      subst e1
      refine ⟨?_, fun nm => ⟨rfl, rfl, rfl⟩, ?_⟩
      · rw [List.forall₂_map_right_iff]
        refine hm.imp ?_
        rintro q p ⟨h1, h2, h3⟩
        refine ⟨h1, by simpa using h2, ?_⟩
        rw [List.forall₂_map_right_iff]
        exact h3.imp (fun _ _ hh => hh.1)
      · rw [e2]
        clear hx hps e2
        induction hm with
        | nil => rfl
        | @cons q p l l' hqp _ ih =>
          simp only [List.flatMap_cons, List.filter_append, List.length_append]
          rw [ih]
          congr 1
          have h3 := hqp.2.2
          clear ih hqp
          generalize q.2 = ds at h3
          generalize p.2 = ps at h3
          induction h3 with
          | nil => rfl
          | @cons d p l l' hdp _ ih =>
            by_cases hd : d.extract = some false
            · have hp : p.2 = false := hdp.2.2 hd
              simp [hd, hp, ih]
            · have hp : p.2 = true := by
                cases hb : p.2 with
                | true => rfl
                | false => exact absurd (hdp.2.1 hb) hd
              simp [hd, hp, ih]

/-- **C116, no missing cloud.** The clouds the generation looks up later (projectiles and products) are found in any list of clouds
that contains the names present at construction. -/
theorem C116_clouds_found (sq lg : K → K) (qe dt : K) (cs : List (XCloud K)) (area : K)
    (defs : List (ℕ × List (ProcDef K))) (nRep : ℕ) (es : List K) (d : ℕ → ℕ → ℕ → XDraws K) (x : XState K)
    (rows : List (List (SigmaRow K))) (h : mkCross sq lg qe dt cs area defs nRep es d = .ok (x, rows))
    (cs' : List (XCloud K)) (hn : ∀ c ∈ cs, ∃ c' ∈ cs', c'.name = c.name) :
    ∀ q ∈ x.projs, (∃ c ∈ cs', cloudGet cs' q.1 = .ok c ∧ c.name = q.1) ∧
      ∀ p ∈ q.2, ∀ nm ∈ p.products, ∃ c ∈ cs', cloudGet cs' nm = .ok c ∧ c.name = nm := by
  obtain ⟨hf, -, -⟩ := C116_constructed sq lg qe dt cs area defs nRep es d x rows h
  have hget : ∀ nm, (∃ c ∈ cs, c.name = nm) → ∃ c ∈ cs', cloudGet cs' nm = .ok c ∧ c.name = nm := by
    rintro nm ⟨c, hc, rfl⟩
    obtain ⟨c', hc', he⟩ := hn c hc
    unfold cloudGet
    cases hfd : cs'.reverse.find? (fun k => k.name == c.name) with
    | none =>
      rw [List.find?_eq_none] at hfd
      exact absurd (hfd c' (List.mem_reverse.2 hc')) (by simp [he])
    | some k =>
      have h1 := List.find?_some hfd
      have h2 := List.mem_of_find?_eq_some hfd
      exact ⟨k, List.mem_reverse.1 h2, rfl, by simpa using h1⟩
  intro q hq
  obtain ⟨q0, hq0, hqq⟩ := forall2_right hf q hq
  refine ⟨hget q.1 (hqq.1 ▸ hqq.2.1), ?_⟩
  intro p hp nm hnm
  apply hget
  obtain ⟨d0, -, hb⟩ := forall2_right hqq.2.2 p hp
  obtain ⟨_, _, _, _, hpr, _, hnn⟩ := hb
  have := hnn nm (hpr ▸ hnm)
  simpa using this

/-- **C116, refused.** A projectile or product that is not the name of a cloud stops the construction with an error. -/
theorem C116_refused (sq lg : K → K) (qe dt : K) (cs : List (XCloud K)) (area : K)
    (defs : List (ℕ × List (ProcDef K))) (nRep : ℕ) (es : List K) (d : ℕ → ℕ → ℕ → XDraws K)
    (q : ℕ × List (ProcDef K)) (hq : q ∈ defs)
    (hbad : (∀ c ∈ cs, c.name ≠ q.1) ∨ ∃ p ∈ q.2, ∃ nm ∈ p.products, ∀ c ∈ cs, c.name ≠ nm) :
    ∃ e, mkCross sq lg qe dt cs area defs nRep es d = .error e := by
  cases hx : mkCross sq lg qe dt cs area defs nRep es d with
  | error e => exact ⟨e, rfl⟩
  | ok x =>
    exfalso
    obtain ⟨hf, -, -⟩ := C116_constructed sq lg qe dt cs area defs nRep es d x.1 x.2 hx
    obtain ⟨p, -, hp⟩ := forall2_left hf q hq
    obtain ⟨_, ⟨c, hc, hce⟩, h3⟩ := hp
    rcases hbad with h1 | ⟨p0, hp0, nm, hnm, h2⟩
    · exact h1 c hc hce
    · obtain ⟨p1, -, hb⟩ := forall2_left h3 p0 hp0
      have := hb.2.2.2.2.2.2 nm hnm
      simp only [List.mem_map] at this
      obtain ⟨c', hc', hce'⟩ := this
      exact h2 c' hc' hce'

/-- **C117.** The extracted curves of a process. For every test energy of non-negative value the first curve is the cross section of
the process at that energy; the second one, estimated from the macroparticles the process generates for each product
(not `generate_equally`), differs from it by less than the cross section for one macroparticle of the product per projectile
macroparticle. The process is left as it was. (`hsq`: `sq` gives the square root at this energy; all random draws.) -/
theorem C117_extracted (pr pr' : Proc K) (sq lg : K → K) (qe dt : K)
    (cs : List (XCloud K)) (mass ref : K) (nRep : ℕ) (e : K) (d : XDraws K) (row : SigmaRow K)
    (hsq : sq (2 * e * qe / mass) * sq (2 * e * qe / mass) = 2 * e * qe / mass ∧ 0 ≤ sq (2 * e * qe / mass))
    (h : pr.extractRow sq lg qe dt cs mass ref nRep e d = .ok (pr', row))
    (he : 0 < e) (hq : 0 < qe) (hm : 0 < mass) (hdt : 0 < dt) (href : 0 < ref) (hrep : 0 < nRep) (hdens : 0 < pr.dens)
    (hs : ∀ e s, pr.table.getSigma lg e = .ok s → 0 ≤ s) (hr : ∀ c ∈ cs, 0 < c.mps.ref)
    (hu : ∀ k i, 0 ≤ d.u k i) (heq : pr.equally = false) (nm : ℕ) (hnm : nm ∈ pr.products) :
    pr' = pr ∧ ∃ s c, pr.table.getSigma lg e = .ok s ∧ row.interp = s * 10 ^ 4 ∧ c ∈ cs ∧ c.name = nm ∧
      |row.sampled nm - s * 10 ^ 4| ≤ c.mps.ref / ref / (pr.dens * sq (2 * e * qe / mass) * dt) * 10 ^ 4 := by
  have hpr := extractRow_proc _ _ _ _ _ _ _ _ _ _ _ _ _ h
  refine ⟨hpr, ?_⟩
  unfold Proc.extractRow at h
  split at h
  · cases h
  · next s hsig =>
    dsimp only at h
    split at h
    · cases h
    · next pr1 info dn hg =>
      cases h
      have hpr1 := generate_false _ _ _ _ _ _ _ _ _ _ _ _ _ hg
      subst hpr1
      set v := sq (2 * e * qe / mass) with hv
      have harg : 0 < 2 * e * qe / mass := by positivity
      have hvv : v * v = 2 * e * qe / mass := hsq.1
      have hv0 : 0 < v := by
        rcases hsq.2.lt_or_eq with h1 | h1
        · exact h1
        · exfalso
          rw [← h1] at hvv
          rw [← hvv] at harg
          simp at harg
      have hener : 1 / 2 * mass / qe * v * v = e := by
        have : 1 / 2 * mass / qe * v * v = 1 / 2 * mass / qe * (v * v) := by ring
        rw [this, hvv]; field_simp
      set proj : List (Particle K) := List.replicate nRep (fun f => if f = .nel then 1 * ref else 0) with hproj
      have hlen : (List.replicate nRep v).length = proj.length := by simp [hproj]
      obtain ⟨⟨per, hper1, hper2, hper3⟩, -, -⟩ := C46_target _ _ _ _ _ _ _ _ _ _ _ _ _ _ hlen hg
      obtain ⟨per', hp1, hp2, hp3, -, -, hp5, -⟩ := C46_products _ _ _ _ _ _ _ _ _ _ _ _ _ _ hlen hg hs hdens.le hdt.le
        (by intro w hw; rw [List.mem_replicate] at hw; rw [hw.2]; exact hv0.le)
        (by intro p hp; rw [hproj, List.mem_replicate] at hp; rw [hp.2]; simp [href.le]) hr
      obtain ⟨k, c, counts, hc, hcn, hcl, hcr, hb⟩ := hp5 heq nm hnm
      refine ⟨s, c, hsig, rfl, hc, hcn, ?_⟩
      have hch := C46_charge proj per' counts c.mps.ref (d.u k) (info nm) (hr c hc) (hu k) hp3 hp2 hcl hcr hb
      -- the number of ionisations
      have hperq : ∀ q ∈ per, q = s * pr'.dens * (v * dt) * ref := by
        intro q hqm
        obtain ⟨i, hi, rfl⟩ := List.getElem_of_mem hqm
        obtain ⟨p, w, s', hpi, hwi, hsi, hqi⟩ := hper3 i _ (List.getElem?_eq_getElem hi)
        have hpm := List.mem_of_getElem? hpi
        have hwm := List.mem_of_getElem? hwi
        rw [hproj, List.mem_replicate] at hpm
        rw [List.mem_replicate] at hwm
        rw [hwm.2, hener, hsig] at hsi
        cases hsi
        rw [hqi, hpm.2, hwm.2]
        simp [ionisations]
      have hsum : dn = (nRep : K) * (s * pr'.dens * (v * dt) * ref) := by
        rw [hper1, List.eq_replicate_of_mem hperq, List.sum_replicate, hper2]
        simp [hproj]
      rw [← hp1, hsum] at hch
      have hN : (0 : K) < (nRep : K) := by exact_mod_cast hrep
      have hpl : (proj.length : K) = nRep := by simp [hproj]
      rw [hpl] at hch
      simp only [if_pos hv0, List.sum_replicate, nsmul_eq_mul, one_mul]
      set Q := ((info nm).arr .nel).sum with hQ
      have hden : 0 < pr'.dens * v * dt * (nRep * ref) := by positivity
      have e1 : Q / pr'.dens / v / dt / (nRep * ref) * 10 ^ 4 - s * 10 ^ 4
          = (Q - nRep * (s * pr'.dens * (v * dt) * ref)) / (pr'.dens * v * dt * (nRep * ref)) * 10 ^ 4 := by
        field_simp
      rw [e1, abs_mul, abs_div, abs_of_pos hden, abs_of_pos (show (0 : K) < 10 ^ 4 by positivity)]
      have e2 : c.mps.ref / ref / (pr'.dens * v * dt) = nRep * c.mps.ref / (pr'.dens * v * dt * (nRep * ref)) := by
        field_simp
      rw [e2]
      gcongr

/-- **C117, all energies.** The curves have one entry per test energy, entry `k` from energy `k`, and the process is left as it was. -/
theorem C117_all_energies (sq lg : K → K) (qe dt : K) (cs : List (XCloud K)) (mass ref : K) (nRep : ℕ)
    (d : ℕ → XDraws K) (es : List K) (pr pr' : Proc K) (rows : List (SigmaRow K))
    (h : Proc.extractSigma sq lg qe dt cs mass ref nRep d 0 es pr = .ok (pr', rows)) :
    pr' = pr ∧ rows.length = es.length ∧
      ∀ (k : ℕ) (e : K) (r : SigmaRow K), es[k]? = some e → rows[k]? = some r →
        pr.extractRow sq lg qe dt cs mass ref nRep e (d k) = .ok (pr, r) ∧
        ∃ s, pr.table.getSigma lg e = .ok s ∧ r.interp = s * 10 ^ 4 := by
  obtain ⟨a, b, c⟩ := extractSigma_proc _ _ _ _ _ _ _ _ _ _ _ _ _ _ h
  refine ⟨a, b, ?_⟩
  intro k e r h1 h2
  have hr := c k e r h1 h2
  rw [Nat.zero_add] at hr
  refine ⟨hr, ?_⟩
  unfold Proc.extractRow at hr
  split at hr
  · cases hr
  · next s hs =>
    dsimp only at hr
    split at hr
    · cases hr
    · cases hr; exact ⟨s, hs, rfl⟩

/-! ## Examples -/

/-- an ionisation by cloud 0 with products in clouds 1 and 2, the sampling of both products independent -/
def exDef (prods : List ℕ) : ProcDef ℚ := ⟨10, 3, none, none, prods, uniformGrid 0 400 3, [0, 10000, 30000]⟩

example : ∃ r : XState ℚ × List (List (SigmaRow ℚ)), mkCross (fun a : ℚ => |a|) id 1 (1 / 1000) exClouds 10
    [(0, [exDef [1, 2], { exDef [1] with extract := some false, equally := some true }])] 3 [1, 400, 900]
    (fun _ _ _ => exXDraws) = .ok r ∧
    r.1.projs.map (fun q : ℕ × List (Proc ℚ) => q.2.map fun p => p.nTarget) = [[100, 100]] ∧
    r.1.projs.map (fun q : ℕ × List (Proc ℚ) => q.2.map fun p => p.equally) = [[false, true]] ∧
    r.1.projs.map (fun q : ℕ × List (Proc ℚ) => q.2.map fun p => p.products) = [[[1, 2], [1]]] ∧
    r.2.map (fun l => l.map fun w => w.interp) = [[25, 10000, 0]] := by
  refine exists_ok ?_
  decide +kernel

/-- product 7 is not a cloud -/
example : ∃ e, mkCross (fun a : ℚ => |a|) id 1 (1 / 1000) exClouds 10 [(0, [exDef [1, 7]])] 3 [1] (fun _ _ _ => exXDraws)
    = .error e :=
  C116_refused _ _ _ _ _ _ _ _ _ _ (0, [exDef [1, 7]]) (by simp)
    (Or.inr ⟨exDef [1, 7], by simp, 7, by simp [exDef], by decide⟩)

/-- the hypotheses of `C117_extracted` hold for cloud 0 at energy 1 -/
example : ∃ r, (exProc false).extractRow (fun a : ℚ => |a|) id 1 (1 / 1000) exClouds 2 5 3 1 exXDraws = .ok r ∧
    |r.2.sampled 2 - 25| ≤ 8 / 5 / (10 * 1 * (1 / 1000)) * 10 ^ 4 := by
  obtain ⟨r, hr, -⟩ : ∃ r, (exProc false).extractRow (fun a : ℚ => |a|) id 1 (1 / 1000) exClouds 2 5 3 1 exXDraws = .ok r ∧
      r.2.interp = 25 := exists_ok (by decide +kernel)
  obtain ⟨-, s, c, h1, h2, h3, h4, h5⟩ := C117_extracted (exProc false) r.1 (fun a : ℚ => |a|) id 1 (1 / 1000) exClouds 2 5 3 1
    exXDraws r.2 (by norm_num) hr (by norm_num) (by norm_num) (by norm_num) (by norm_num) (by norm_num) (by norm_num)
    (by norm_num [exProc]) exXTable_nonneg (by decide +kernel) (by intro k i; norm_num [exXDraws]) rfl 2 (by simp [exProc])
  refine ⟨r, hr, ?_⟩
  have hs : s = 25 / 10 ^ 4 := by
    have : (exProc false).table.getSigma id 1 = .ok (25 / 10 ^ 4 : ℚ) := by decide +kernel
    rw [h1] at this
    exact Except.ok.inj this
  have hc : c.mps.ref = 8 := by
    simp only [exClouds, List.mem_cons, List.not_mem_nil, or_false] at h3
    rcases h3 with rfl | rfl | rfl
    · simp at h4
    · simp at h4
    · rfl
  rw [hs, hc] at h5
  norm_num [exProc] at h5 ⊢
  exact h5

end PyECLOUD
