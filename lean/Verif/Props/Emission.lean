import Verif.Props.Impact

/-!
# Properties of the emission models (C24, C25, C30-C35)
-/

set_option linter.unusedSectionVars false

namespace PyECLOUD

theorem npRepeat_flatMap {α : Type} (l : List α) (n : List ℕ) :
    npRepeat l n = (l.zip n).flatMap (fun q => List.replicate q.2 q.1) := by
  induction l generalizing n with
  | nil => cases n <;> rfl
  | cons a l ih => cases n with
    | nil => rfl
    | cons k n => simp [npRepeat, ih]

theorem maskSel_filter_zip {α β : Type} (l : List α) (l' : List β) (p : α → Bool) (h : l.length = l'.length) :
    maskSel l' (l.map p) = ((l.zip l').filter (fun q => p q.1)).map (fun q => q.2) := by
  induction l generalizing l' with
  | nil => simp
  | cons a l ih => cases l' with
    | nil => simp at h
    | cons b l' =>
      have := ih l' (by simpa using h)
      simp only [List.map_cons, maskSel, List.zip_cons_cons, List.filter_cons]
      cases hp : p a <;> simp [maskSel, this]

variable {K : Type} [Field K] [LinearOrder K] [FloorRing K] [IsStrictOrderedRing K]

/-! ## C24 -/

/-- smallest number of equal pieces of a charge such that no piece exceeds `th` -/
def IsPieces (th nel : K) (m : ℕ) : Prop := IsLeast {m : ℕ | 1 ≤ m ∧ nel / (m : K) ≤ th} m

theorem nAdd_pieces (th nel : K) (hth : 0 < th) : IsPieces th nel (nAdd th nel false + 1) := by
  unfold IsPieces nAdd
  simp only [Bool.false_eq_true, if_false]
  constructor
  · refine ⟨by omega, ?_⟩
    have h1 : nel / th ≤ ((⌈nel / th⌉ - 1).toNat + 1 : ℕ) := by
      have h2 : ⌈nel / th⌉ ≤ (((⌈nel / th⌉ - 1).toNat + 1 : ℕ) : ℤ) := by push_cast; omega
      have h3 := Int.le_ceil (nel / th)
      calc nel / th ≤ (⌈nel / th⌉ : K) := h3
        _ ≤ ((((⌈nel / th⌉ - 1).toNat + 1 : ℕ) : ℤ) : K) := by exact_mod_cast h2
        _ = _ := by push_cast; rfl
    rw [div_le_iff₀ hth] at h1
    rw [div_le_iff₀ (by positivity)]
    linarith
  · intro m ⟨hm, hle⟩
    have hm' : (0 : K) < m := by exact_mod_cast hm
    rw [div_le_iff₀ hm'] at hle
    have h1 : nel / th ≤ ((m : ℤ) : K) := by rw [div_le_iff₀ hth]; push_cast; linarith
    have h2 := Int.ceil_le.2 h1
    omega

/-- C24: for every event the replaced macroparticle and the added ones are `m` equal pieces of the emitted
charge, `m` being the smallest number of pieces not exceeding the splitting size (elastic events are never
split); the added macroparticles are exactly these pieces, grouped by event. -/
theorem C24_splitting (hill1 hill2 : List K → Except PyErr (List K)) (ang1 ang2 : ℕ → K → K → K → K × K × K)
    (th : K) (hth : 0 < th)
    (hl1 : ∀ l r, hill1 l = .ok r → r.length = l.length) (hl2 : ∀ l r, hill2 l = .ok r → r.length = l.length)
    (evs : List (Impact K × K × Bool)) (out : SeyOut K)
    (hok : seyECLOUD hill1 hill2 ang1 ang2 th evs = .ok out) :
    ∃ ms : List ℕ, List.Forall₂ (fun (ev : Impact K × K × Bool) (m : ℕ) =>
        if ev.2.2 then m = 1 else IsPieces th ev.2.1 m) evs ms ∧
      out.replace.map (fun e => e.nel) = (evs.zip ms).map (fun q => q.1.2.1 / (q.2 : K)) ∧
      out.new.map (fun e => e.nel) = (evs.zip ms).flatMap (fun q => List.replicate (q.2 - 1) (q.1.2.1 / (q.2 : K))) ∧
      (∀ q ∈ evs.zip ms, 1 ≤ q.2 ∧ (q.2 : K) * (q.1.2.1 / (q.2 : K)) = q.1.2.1) := by
  have h := seyECLOUD_out hill1 hill2 ang1 ang2 th hl1 hl2 evs out hok
  refine ⟨evs.map (fun e => nAdd th e.2.1 e.2.2 + 1), ?_, ?_, ?_, ?_⟩
  · rw [List.forall₂_map_right_iff, List.forall₂_same]
    intro e _
    cases he : e.2.2 with
    | true => simp [nAdd]
    | false => simpa using nAdd_pieces th e.2.1 hth
  · have := congrArg (List.map (fun q : K × K × K × K × ℤ => q.1)) h.still
    rw [List.map_map, List.map_map] at this
    refine this.trans ?_
    apply List.ext_getElem
    · simp
    · intro i h1 h2
      simp only [List.getElem_map, Function.comp_apply, List.getElem_zip]
      show (baseReplace _ _ _ _).nel = _
      rw [eq_div_iff (by positivity)]
      push_cast
      exact base_nel_total _ _ _ _
  · have := congrArg (List.map (fun q : K × K × K × K × ℤ => q.1)) h.newStill
    rw [List.map_map, npRepeat_map, List.map_map] at this
    refine this.trans ?_
    rw [npRepeat_flatMap]
    clear * -
    induction evs with
    | nil => rfl
    | cons e evs ih =>
      simp only [List.map_cons, List.zip_cons_cons, List.flatMap_cons]
      rw [ih, Nat.add_sub_cancel]
      congr 2
      show (baseReplace _ _ _ _).nel = _
      rw [eq_div_iff (by positivity)]
      push_cast
      exact base_nel_total _ _ _ _
  · intro q hq
    have h2 := (List.of_mem_zip hq).2
    obtain ⟨e, _, he⟩ := List.mem_map.1 h2
    refine ⟨by omega, ?_⟩
    have : (q.2 : K) ≠ 0 := by rw [← he]; positivity
    field_simp

/-- impact used in the examples: normal `(-1, 0)` -/
def exImp (nel en : ℚ) : Impact ℚ := ⟨nel, 5 / 2, 0, 0, 3, 4, 1, -1, 0, 0, -3, en, 1⟩

/-- one true secondary event of charge 30 (three pieces for a limit of 12) and one elastic event -/
def exEvs : List (Impact ℚ × ℚ × Bool) := [(exImp 20 5, 30, false), (exImp 8 2, 8, true)]

example : ∃ out, seyECLOUD (fun l => .ok l) (fun l => .ok l) (fun _ e nx ny => (e * nx, e * ny, 0))
    (fun _ e nx ny => (e * nx, e * ny, 0)) (12 : ℚ) exEvs = .ok out ∧
    out.replace.map (fun e => e.nel) = [10, 8] ∧ out.new.map (fun e => e.nel) = [10, 10] :=
  exists_ok (by decide +kernel)

/-! ## C25 -/

/-- C25: every impact is elastic or a true secondary. Elastic ones leave unsplit with the whole emitted charge
from the impact point, with the specular velocity; true secondaries get an energy drawn for their own
impact energy and are emitted around the normal at their own impact point; the added macroparticles likewise,
with the impact energy and the normal of their parent. -/
theorem C25_treatment (hill1 hill2 : List K → Except PyErr (List K)) (ang1 ang2 : ℕ → K → K → K → K × K × K)
    (th : K)
    (hl1 : ∀ l r, hill1 l = .ok r → r.length = l.length) (hl2 : ∀ l r, hill2 l = .ok r → r.length = l.length)
    (evs : List (Impact K × K × Bool)) (out : SeyOut K)
    (hok : seyECLOUD hill1 hill2 ang1 ang2 th evs = .ok out) :
    (∀ (k : ℕ) (i : Impact K) (q : K), evs[k]? = some (i, q, true) →
      out.replace[k]? = some ⟨q, i.x, i.y, i.z, i.vx - 2 * i.vn * i.nx, i.vy - 2 * i.vn * i.ny, i.vz, i.seg⟩) ∧
    List.Forall₂ SameSpot (evs.map (fun e => e.1)) out.replace ∧
    (evs.any (fun e => !e.2.2) = true → ∃ en1,
      hill1 ((evs.filter (fun e => !e.2.2)).map (fun e => e.1.en)) = .ok en1 ∧
      (((evs.zip out.replace).filter (fun q => !q.1.2.2)).map (fun q => (q.2.vx, q.2.vy, q.2.vz))) =
        ((evs.filter (fun e => !e.2.2)).zip en1).mapIdx (fun k q => ang1 k q.2 q.1.1.nx q.1.1.ny)) ∧
    (out.new ≠ [] → ∃ (par : List (Impact K)) (en2 : List K),
      (∀ i ∈ par, ∃ ev ∈ evs, ev.1 = i ∧ ev.2.2 = false) ∧
      List.Forall₂ SameSpot par out.new ∧ hill2 (par.map (fun i => i.en)) = .ok en2 ∧
      out.new.map (fun e => (e.vx, e.vy, e.vz)) = (par.zip en2).mapIdx (fun k q => ang2 k q.2 q.1.nx q.1.ny)) := by
  have h := seyECLOUD_out hill1 hill2 ang1 ang2 th hl1 hl2 evs out hok
  have hlen : out.replace.length = evs.length := by
    have := congrArg List.length h.still
    simpa using this
  refine ⟨?_, h.spots, ?_, ?_⟩
  · intro k i q he
    rw [h.elastic k _ he rfl]
    rfl
  · intro hany
    obtain ⟨en1, h1, h2⟩ := h.energies hany
    refine ⟨en1, h1, ?_⟩
    rw [← h2, maskSel_filter_zip _ _ _ hlen.symm, List.map_map]
    rfl
  · intro hne
    obtain ⟨en2, h1, h2⟩ := h.newEnergies hne
    refine ⟨npRepeat (evs.map (fun e => e.1)) (evs.map (fun e => nAdd th e.2.1 e.2.2)), en2, ?_, ?_, ?_, ?_⟩
    · intro i hi
      rw [npRepeat_flatMap, List.mem_flatMap] at hi
      obtain ⟨q, hq, hi⟩ := hi
      obtain ⟨hn, rfl⟩ := List.mem_replicate.1 hi
      rw [List.zip_map'] at hq
      obtain ⟨ev, hev, rfl⟩ := List.mem_map.1 hq
      refine ⟨ev, hev, rfl, ?_⟩
      cases hb : ev.2.2 with
      | false => rfl
      | true => simp [nAdd, hb] at hn
    · rw [List.forall₂_iff_get]
      have hnl := congrArg List.length h.newStill
      rw [List.length_map, npRepeat_length _ _ (by simp)] at hnl
      refine ⟨by rw [npRepeat_length _ _ (by simp), hnl], ?_⟩
      intro k hk1 hk2
      have h3 : out.new.map (fun e => e.still.2) = (npRepeat (evs.map (fun e => e.1))
          (evs.map (fun e => nAdd th e.2.1 e.2.2))).map (fun i => (i.x, i.y, i.z, i.seg)) := by
        have := congrArg (List.map (fun q : K × K × K × K × ℤ => q.2)) h.newStill
        rw [List.map_map, npRepeat_map, List.map_map] at this
        refine this.trans ?_
        rw [npRepeat_map, List.map_map]
        congr 1
        apply List.map_congr_left
        intro e _
        exact baseReplace_still_xyz _ _ _ _
      have h4 := congrArg (fun l => l[k]?) h3
      simp only [List.getElem?_map] at h4
      rw [List.getElem?_eq_getElem hk2, List.getElem?_eq_getElem hk1] at h4
      simp only [Option.map_some, Option.some.injEq, Emit.still, Prod.mk.injEq] at h4
      exact h4
    · rw [npRepeat_map, List.map_map]; exact h1
    · exact h2

example : ∃ out, seyECLOUD (fun l => .ok l) (fun l => .ok l) (fun _ e nx ny => (e * nx, e * ny, 0))
    (fun _ e nx ny => (e * nx, e * ny, 0)) (12 : ℚ) exEvs = .ok out ∧
    out.replace.map (fun e => (e.vx, e.vy, e.vz)) = [(-5, 0, 0), (-3, 4, 1)] ∧
    out.new.map (fun e => (e.vx, e.vy, e.vz)) = [(-5, 0, 0), (-5, 0, 0)] :=
  exists_ok (by decide +kernel)

/-! ## C30 -/

/-- C30: with the perfect absorber the impact step creates nothing, empties exactly the macroparticles that
were outside, removes exactly the impacting charge, and the next cleaning leaves exactly the macroparticles
that were inside (and above the cleaning threshold). -/
theorem C30_absorber (sq : K → K) (c : ImpCfg K) (ch : Chamber K) (s : MPs K) (hwf : s.WF) (hroom : s.nmp < s.cap)
    (old : List (K × K × K)) (tt : K) (h : ImpHist K) (s' : MPs K) (h' : ImpHist K) (n : ImpCount K)
    (hcl : 0 < s.clTh)
    (hok : impactStep sq c ch (fun _ imps => .ok (seyAbsorber imps)) s old tt h = .ok (s', h', n)) :
    s'.nmp = s.nmp ∧ n.nelEmit = 0 ∧ totalCharge s'.live = totalCharge s.live - n.nelImp ∧
    (∀ (k : ℕ) (p p' : Particle K), s.live[k]? = some p → s'.live[k]? = some p' →
      p' .nel = if ch.outside (p .x) (p .y) then 0 else p .nel) ∧
    s'.clean.live = s.live.filter (fun p => !ch.outside (p .x) (p .y) && decide (s.clTh ≤ p .nel)) := by
  have hsey : ∀ imps out, (fun (_ : K) (imps : List (Impact K)) => (Except.ok (seyAbsorber imps) : Except PyErr (SeyOut K))) s.split imps = .ok out →
      SeyOk imps out := by
    intro imps out ho
    cases ho
    exact absorber_seyOk imps
  obtain ⟨hC1, -⟩ := C18_charge_balance sq c ch _ s hwf hroom old tt h s' h' n hsey hok
  have hl : ∀ imps out, (fun (_ : K) (imps : List (Impact K)) => (Except.ok (seyAbsorber imps) : Except PyErr (SeyOut K))) s.split imps = .ok out →
      out.replace.length = imps.length :=
    fun imps out ho => (hsey imps out ho).replace.length_eq.symm
  rcases impactStep_cases sq c ch _ s hwf hroom old tt h s' h' n hl hok with ⟨he, rfl, rfl, rfl⟩ | ⟨hne, -, hits, imps, out, r⟩
  · have hin : ∀ p ∈ s'.live, ch.outside (p .x) (p .y) = false := by
      intro p hp
      simpa [Chamber.out] using List.filter_eq_nil_iff.1 he p hp
    refine ⟨rfl, rfl, by simpa using hC1, ?_, ?_⟩
    · intro k p p' h1 h2
      rw [h1] at h2
      cases h2
      rw [hin p (List.mem_of_getElem? h1)]; rfl
    · rw [(C01_clean_exact s' hwf).1]
      apply List.filter_congr
      intro p hp
      simp [hin p hp]
  · have hout : out = seyAbsorber imps := by have := r.sey; cases this; rfl
    subst hout
    have hem : n.nelEmit = 0 := by rw [r.count]; simp [seyAbsorber]
    have hlive := r.live
    have hnew : ((seyAbsorber imps).new.map (Emit.particle s.lifetime tt)) = [] := rfl
    rw [hnew, List.append_nil] at hlive
    have hrl : ((seyAbsorber imps).replace.map (Emit.particle s.lifetime tt)).length = countTrue (outMask s ch) := by
      rw [List.length_map, ← (absorber_seyOk imps).replace.length_eq, r.len, countTrue_outMask]
    have hlen := congrArg List.length hlive
    rw [maskPut_length, live_length, live_length] at hlen
    -- sizes of the emptied ones
    have hz : ∀ p ∈ (seyAbsorber imps).replace.map (Emit.particle s.lifetime tt), p .nel = 0 := by
      intro p hp
      obtain ⟨e, he, rfl⟩ := List.mem_map.1 hp
      obtain ⟨i, _, rfl⟩ := List.mem_map.1 he
      show i.nel * 0 = 0
      simp
    refine ⟨hlen, hem, by rw [hC1, hem, add_zero], ?_, ?_⟩
    · intro k p p' h1 h2
      rw [hlive] at h2
      by_cases ho : ch.outside (p .x) (p .y) = true
      · rw [if_pos ho]
        have hm : (outMask s ch)[k]? = some true := by
          unfold outMask; rw [List.getElem?_map, h1]; simpa [Chamber.out] using ho
        have h3 := maskPut_maskSel s.live (outMask s ch)
        exact hz p' (maskPut_hit _ _ _ hrl k hm p' h2)
      · rw [if_neg ho]
        rw [maskPut_getElem? _ _ _ _ (by
          unfold outMask
          rw [List.getD_eq_getElem?_getD, List.getElem?_map, h1]
          simpa [Chamber.out] using ho), h1] at h2
        cases h2; rfl
    · rw [(C01_clean_exact s' r.wf).1, hlive, show s'.clTh = s.clTh from r.sizes.2.2.1]
      unfold outMask
      have hz' : ∀ p ∈ (seyAbsorber imps).replace.map (Emit.particle s.lifetime tt), decide (s.clTh ≤ p .nel) = false := by
        intro p hp
        rw [hz p hp]
        simpa using hcl
      have := maskPut_filter s.live ch.out (fun p => decide (s.clTh ≤ p .nel)) _ (by rw [hrl]; rfl) hz'
      rw [this]
      apply List.filter_congr
      intro p _
      rfl

/-- the cloud with a cleaning threshold of 1/2 and the same slab with absorbing walls -/
example : ∃ r, impactStep (fun v => v) slabCfg slab (fun _ imps => .ok (seyAbsorber imps)) toy toyOld 20 slabHist = .ok r ∧
    0 < toy.clTh ∧ r.1.nmp = 3 ∧ totalCharge r.1.live = 11 ∧ r.1.clean.nmp = 1 :=
  exists_ok (by decide +kernel)

/-! ## C31 -/

/-- C31: exactly one of the flags is set (the second one does not exist without rediffused electrons), and the
recorded kind is that flag. -/
theorem C31_flags_partition (excl : Bool) (de dr u : K) :
    (fpFlags excl de dr u).1 = decide (fpKind excl de dr u = .back) ∧
    (fpFlags excl de dr u).2.1 = (if excl then none else some (decide (fpKind excl de dr u = .rediff))) ∧
    (fpFlags excl de dr u).2.2 = decide (fpKind excl de dr u = .true') ∧
    (excl = true → fpKind excl de dr u ≠ .rediff) := by
  unfold fpFlags fpKind
  cases excl
  · by_cases h1 : de + dr < u
    · simp [h1]
    · by_cases h2 : u < de <;> simp [h1, h2]
  · by_cases h1 : de < u <;> simp [h1]

/-- probabilities of the three kinds: an electron is backscattered exactly for draws below `delta_e`,
rediffused between `delta_e` and `delta_e + delta_r`, true secondary above (`delta_r` non-negative). -/
theorem C31_kind_intervals (de dr u : K) (hr : 0 ≤ dr) :
    (fpKind false de dr u = .back ↔ u < de) ∧
    (fpKind false de dr u = .rediff ↔ de ≤ u ∧ u ≤ de + dr) ∧
    (fpKind false de dr u = .true' ↔ de + dr < u) ∧
    (fpKind true de dr u = .back ↔ u ≤ de) ∧ (fpKind true de dr u = .true' ↔ de < u) := by
  unfold fpKind
  by_cases h1 : de + dr < u
  · have h2 : ¬ u < de := by linarith [not_lt.2 (by linarith : de ≤ u)]
    have h3 : de < u := by linarith
    simp [h1, h2, h3, not_le.2 h1, not_le.2 h3]
  · have h1' := not_lt.1 h1
    by_cases h2 : u < de
    · simp [h1, h2, h2.le, not_le.2 h2, not_lt.2 h2.le]
    · have := not_lt.1 h2
      by_cases h3 : de < u
      · simp [h1, h2, h1', this, h3, not_le.2 h3]
      · simp [h1, h2, h1', this, h3, not_lt.1 h3]

/-- C31: each impact is exactly one of elastic (event type 0), rediffused (2), true secondary (1), absorbed (3);
elastic and rediffused emit one macroparticle, absorbed none, true secondaries between one and `M_cut`;
the emitted charge is that number times the impacting size, and that many macroparticles leave the impact
point: the replaced one (emptied if absorbed) and the added ones. -/
theorem C31_events (c : FPCfg) (g : FPGens K) (hg : g.Ok) (yields : Impact K → K × K) (u : ℕ → K)
    (first : ℕ → ℕ) (draws : ℕ → ℕ → ℕ) (imps : List (Impact K)) (out : SeyOut K) (codes : List ℕ)
    (h : seyFPModel c g yields u first draws imps = .ok (out, codes)) :
    ∃ ms : List ℕ, ms.length = imps.length ∧ codes.length = imps.length ∧
      (∀ (k : ℕ) (i : Impact K) (m e : ℕ), imps[k]? = some i → ms[k]? = some m → codes[k]? = some e →
        (e = 0 ∧ m = 1 ∧ fpKind c.excludeRediffused (yields i).1 (yields i).2 (u k) = .back) ∨
        (e = 2 ∧ m = 1 ∧ fpKind c.excludeRediffused (yields i).1 (yields i).2 (u k) = .rediff) ∨
        (e = 1 ∧ 1 ≤ m ∧ m ≤ c.mCut ∧ fpKind c.excludeRediffused (yields i).1 (yields i).2 (u k) = .true') ∨
        (e = 3 ∧ m = 0 ∧ fpKind c.excludeRediffused (yields i).1 (yields i).2 (u k) = .true')) ∧
      out.nelEmit = (imps.zip ms).map (fun q => q.1.nel * (q.2 : K)) ∧
      out.replace.map (fun e => e.nel) = (imps.zip ms).map (fun q => if q.2 = 0 then 0 else q.1.nel) ∧
      out.new.map (fun e => (e.nel, e.x, e.y, e.z, e.seg)) =
        (imps.zip ms).flatMap (fun q => List.replicate (q.2 - 1) (q.1.nel, q.1.x, q.1.y, q.1.z, q.1.seg)) := by
  obtain ⟨evs, h1, h2, h3, h4, h5⟩ := seyFPModel_events c g yields u first draws imps _ h
  have hO : FPOut c g evs out codes := seyFP_out c g hg evs h2 _ h5
  have hl : evs.length = imps.length := by rw [← h1]; simp
  have hd : ∀ e ∈ evs, e.dead = decide (e.nEmit = 0) := by
    intro e he
    unfold FPEvent.dead FPEvent.nEmit
    by_cases hk : e.kind = .true' <;> simp [hk]
  have hz : ∀ (γ : Type) (f : Impact K × ℕ → γ), (imps.zip (evs.map FPEvent.nEmit)).map f =
      evs.map (fun e => f (e.imp, e.nEmit)) := by
    intro γ f
    rw [← h1, List.zip_map', List.map_map]; rfl
  refine ⟨evs.map FPEvent.nEmit, by simp [hl], by rw [hO.codes]; simp [hl], ?_, ?_, ?_, ?_⟩
  · intro k i m e hi hm he
    have hk : k < imps.length := (List.getElem?_eq_some_iff.1 hi).1
    have hk' : k < evs.length := by omega
    have hev : evs[k]? = some evs[k] := List.getElem?_eq_getElem hk'
    rw [List.getElem?_map, hev] at hm
    rw [hO.codes, List.getElem?_map, hev] at he
    have h3k := congrArg (fun l => l[k]?) h3
    simp only [List.getElem?_map, List.getElem?_mapIdx, hi, hev, Option.map_some, Option.some.injEq] at h3k hm he
    rw [← h3k]
    have hmem : evs[k] ∈ evs := List.getElem_mem hk'
    have hcut := h4 _ hmem
    have hcode := C31_flags_partition c.excludeRediffused (yields i).1 (yields i).2 (u k)
    rw [← h3k] at hcode
    generalize evs[k] = ev at *
    subst hm he
    unfold FPEvent.code FPEvent.nEmit
    rcases hkind : ev.kind with _ | _ | _
    · left; cases c.excludeRediffused <;> simp
    · right; left
      have : c.excludeRediffused = false := by
        cases hx : c.excludeRediffused with
        | false => rfl
        | true => exact absurd hkind (hcode.2.2.2 hx)
      simp [this]
    · right; right
      by_cases hn : ev.n = 0
      · right; cases c.excludeRediffused <;> simp [hn]
      · left
        refine ⟨by cases c.excludeRediffused <;> simp [hn], by simp; omega, by simpa using hcut, rfl⟩
  · rw [hz]; exact hO.emit
  · rw [hz]
    have := congrArg (List.map (fun q : K × K × K × K × ℤ => q.1)) hO.still
    rw [List.map_map, List.map_map] at this
    refine this.trans (List.map_congr_left ?_)
    intro e he
    simp only [Function.comp_apply]
    rw [hd e he]
    by_cases h0 : e.nEmit = 0 <;> simp [h0, Emit.still, Emit.kill, Emit.ofImpact]
  · refine (show _ = _ from hO.newStill).trans ?_
    rw [npRepeat_flatMap, ← h1, List.zip_map', List.zip_map', List.flatMap_map, List.flatMap_map]
    apply List.flatMap_congr
    intro e he
    simp only
    congr 1
    unfold FPEvent.nAdd FPEvent.nEmit
    by_cases hk : e.kind = .true'
    · simp [hk]
    · simp [hk, h2 e he hk]

/-- C31: the impacts are refused exactly if for one of them the yields of elastic and rediffused electrons leave no
probability for the true secondaries; otherwise every impact gets its kind. -/
theorem C31_refused (c : FPCfg) (g : FPGens K) (yields : Impact K → K × K) (u : ℕ → K) (first : ℕ → ℕ) (draws : ℕ → ℕ → ℕ)
    (imps : List (Impact K)) :
    ((∃ i ∈ imps, 1 ≤ (yields i).1 + (yields i).2) → seyFPModel c g yields u first draws imps = .error .valueError) ∧
    ((∀ i ∈ imps, (yields i).1 + (yields i).2 < 1) → fpProcess c.excludeRediffused (imps.map yields) u =
      .ok (imps.mapIdx (fun k i => fpKind c.excludeRediffused (yields i).1 (yields i).2 (u k)))) := by
  refine ⟨fun ⟨i, hi, h⟩ => ?_, fun h => ?_⟩
  · have : (imps.map yields).any (fun d => decide (1 ≤ d.1 + d.2)) = true :=
      List.any_eq_true.2 ⟨yields i, List.mem_map.2 ⟨i, hi, rfl⟩, by simpa using h⟩
    unfold seyFPModel fpProcess
    simp only [this, if_true]
  · have : (imps.map yields).any (fun d => decide (1 ≤ d.1 + d.2)) = false := by
      rw [List.any_eq_false]
      intro d hd
      obtain ⟨i, hi, rfl⟩ := List.mem_map.1 hd
      simpa using h i hi
    unfold fpProcess
    simp only [this, Bool.false_eq_true, if_false]
    congr 1
    apply List.ext_getElem <;> simp

/-- C31: the loop that truncates the Poisson numbers ends after at most twelve iterations, whatever is drawn. -/
theorem C31_cut_loop_ends (mCut : ℕ) (draws : ℕ → ℕ → ℕ) (ns : List ℕ) :
    ∃ r, poissonCut mCut draws 12 0 ns = .ok r ∧ r.length = ns.length ∧ ∀ n ∈ r, n ≤ mCut := by
  obtain ⟨r, hr⟩ := poissonCut_ends mCut draws 12 0 ns (by omega) (by omega)
  obtain ⟨h1, h2⟩ := poissonCut_spec _ _ _ _ _ _ hr
  exact ⟨r, hr, h2, h1⟩

/-- generators for the examples: energies equal to the impact energies, emission along the normal -/
def exGens : FPGens ℚ where
  back := fun l => l
  red := fun l => l
  true1 := fun _ l => .ok l
  true2 := fun _ l => .ok l
  rounds := []
  angBack := fun _ e nx ny => (e * nx, e * ny, 0)
  angRed := fun _ e nx ny => (e * nx, e * ny, 0)
  ang1 := fun _ e nx ny => (e * nx, e * ny, 0)
  ang2 := fun _ e nx ny => (e * nx, e * ny, 0)

theorem exGens_ok : exGens.Ok where
  back _ := rfl
  red _ := rfl
  true1 n l r h := by cases h; rfl
  true2 n l r h := by cases h; rfl

def exFP : FPCfg := ⟨10, true, false, false⟩

/-- draws giving, in order, an elastic, a rediffused, an absorbed and a true secondary event with 11 > `M_cut`
electrons in the first Poisson draw and 3 in the second -/
example : ∃ r, seyFPModel exFP exGens (fun _ => (1 / 4, 1 / 4)) (fun k => [1 / 8, 3 / 8, 5 / 8, 7 / 8].getD k 0)
    (fun k => [0, 11].getD k 0) (fun _ _ => 3) [exImp 2 5, exImp 3 5, exImp 4 5, exImp 5 5] = .ok r ∧
    r.2 = [0, 2, 3, 1] ∧ r.1.nelEmit = [2, 3, 0, 15] ∧ r.1.new.length = 2 :=
  exists_ok (by decide +kernel)

/-! ## C32 -/

/-- C32 fails: a batch in which every true secondary event emits exactly one electron is not given its new
velocity; the macroparticle goes on with its impact velocity, directed into the wall. -/
theorem C32_violated : ∃ r, seyFP exFP exGens [⟨exImp 2 5, .true', 1⟩] = .ok r ∧
    (r.1.replace.map (fun e => (e.nel, e.vx, e.vy, e.vz)) = [(2, 3, 4, 1)] ∧
    (exImp 2 5).vx = 3 ∧ (exImp 2 5).vy = 4 ∧ (exImp 2 5).vz = 1 ∧
    3 * (exImp 2 5).nx + 4 * (exImp 2 5).ny < 0) :=
  exists_ok (by decide +kernel)

/-- C32 as far as it holds: if some event of the batch emits more than one electron, every emitted
macroparticle leaves with the energy drawn for its parent's impact energy, in a direction drawn around its
parent's normal. Missing: batches in which no event emits more than one. -/
theorem C32_new_velocity_partial (c : FPCfg) (g : FPGens K) (hg : g.Ok) (evs : List (FPEvent K))
    (hev : ∀ e ∈ evs, e.kind ≠ .true' → e.n = 0) (out : SeyOut K) (codes : List ℕ)
    (h : seyFP c g evs = .ok (out, codes)) (hmore : ∃ e ∈ evs, 2 ≤ e.n) (hc : c.conserveEnergy = false) :
    ∃ e1 e2 par, g.true1 ((evs.filter FPEvent.alive).map (fun e => e.n))
        ((evs.filter FPEvent.alive).map (fun e => e.imp.en)) = .ok e1 ∧
      par = evs.flatMap (fun e => List.replicate (e.n - 1) e) ∧
      g.true2 (par.map (fun e => e.n)) (par.map (fun e => e.imp.en)) = .ok e2 ∧
      ((evs.zip out.replace).filter (fun q => q.1.alive)).map (fun q => (q.2.vx, q.2.vy, q.2.vz)) =
        ((evs.filter FPEvent.alive).zip e1).mapIdx (fun k q => g.ang1 k q.2 q.1.imp.nx q.1.imp.ny) ∧
      out.new.map (fun e => (e.vx, e.vy, e.vz)) =
        (par.zip e2).mapIdx (fun k q => g.ang2 k q.2 q.1.imp.nx q.1.imp.ny) := by
  have hO : FPOut c g evs out codes := seyFP_out c g hg evs hev _ h
  have hlen : out.replace.length = evs.length := by
    have := congrArg List.length hO.still
    simpa using this
  have hs : (evs.map FPEvent.nAdd).sum ≠ 0 := by
    obtain ⟨e, he, hn⟩ := hmore
    have := List.le_sum_of_mem (List.mem_map.2 ⟨e, he, rfl⟩ : FPEvent.nAdd e ∈ evs.map FPEvent.nAdd)
    unfold FPEvent.nAdd at this
    unfold FPEvent.nAdd
    omega
  obtain ⟨e1, e2, en, ht1, ht2, hen, -, -, hv1, hv2⟩ := hO.vel hs
  rw [hc] at hen
  cases hen
  have hrep : ∀ (γ : Type) (f : FPEvent K → γ), npRepeat (evs.map f) (evs.map FPEvent.nAdd) =
      (evs.flatMap (fun e => List.replicate (e.n - 1) e)).map f := by
    intro γ f
    rw [npRepeat_flatMap, List.zip_map', List.flatMap_map, List.map_flatMap]
    apply List.flatMap_congr
    intro e _
    simp [FPEvent.nAdd]
  refine ⟨e1, e2, _, ht1, rfl, ?_, ?_, ?_⟩
  · rw [hrep, hrep] at ht2; exact ht2
  · have hm := maskSel_filter_zip evs out.replace FPEvent.alive hlen.symm
    rw [hm, List.map_map] at hv1
    exact hv1
  · rw [hv2, hrep, List.zip_map_left]
    apply List.ext_getElem
    · simp
    · intro i h1 h2
      simp [List.getElem_mapIdx]

example : exGens.Ok ∧ ∃ r, seyFP exFP exGens [⟨exImp 2 5, .true', 1⟩, ⟨exImp 3 7, .true', 3⟩] = .ok r ∧
    (r.1.replace.map (fun e => e.vx) = [-5, -7] ∧ r.1.new.map (fun e => e.vx) = [-7, -7]) :=
  ⟨exGens_ok, exists_ok (by decide +kernel)⟩

/-! ## C33 -/

omit [LinearOrder K] [FloorRing K] [IsStrictOrderedRing K] in
/-- C33: specular reflection on a unit normal keeps the speed, reverses the normal component, keeps the
tangential one, and is an involution. `vn` is the normal component, as computed by the impact step. -/
theorem C33_specular (vx vy nx ny : K) (hn : nx * nx + ny * ny = 1) :
    let w := specular vx vy nx ny (vx * nx + vy * ny)
    w.1 * w.1 + w.2 * w.2 = vx * vx + vy * vy ∧
    w.1 * nx + w.2 * ny = -(vx * nx + vy * ny) ∧
    w.1 * ny - w.2 * nx = vx * ny - vy * nx ∧
    specular w.1 w.2 nx ny (w.1 * nx + w.2 * ny) = (vx, vy) := by
  have e : (specular vx vy nx ny (vx * nx + vy * ny)).1 * nx + (specular vx vy nx ny (vx * nx + vy * ny)).2 * ny
      = -(vx * nx + vy * ny) := by
    simp only [specular]
    linear_combination (-2 * (vx * nx + vy * ny)) * hn
  refine ⟨?_, e, ?_, ?_⟩
  · simp only [specular]
    linear_combination (4 * (vx * nx + vy * ny) ^ 2) * hn
  · simp only [specular]; ring
  · show specular _ _ nx ny _ = _
    rw [e]
    simp only [specular, Prod.mk.injEq]
    constructor <;> ring

example : ((3 : ℚ) / 5) * (3 / 5) + (4 / 5) * (4 / 5) = 1 ∧ specular (1 : ℚ) 0 (3 / 5) (4 / 5) (3 / 5) = (7 / 25, -24 / 25) := by
  constructor
  · norm_num
  · simp only [specular]; norm_num

/-- C33 in the impact step: the normal velocity handed to the emission models is the scalar product of the
impact velocity with the normal of the hit, so elastic electrons are reflected specularly. -/
theorem C33_impact_normal_velocity (sq : K → K) (ke : K) (p : Particle K) (b : Hit K) :
    (mkImpact sq ke p b).vn = p .vx * b.nx + p .vy * b.ny ∧ (mkImpact sq ke p b).nx = b.nx ∧
    (mkImpact sq ke p b).ny = b.ny ∧ (mkImpact sq ke p b).vx = p .vx ∧ (mkImpact sq ke p b).vy = p .vy ∧
    (mkImpact sq ke p b).vz = p .vz := ⟨rfl, rfl, rfl, rfl, rfl, rfl⟩

/-! ## C35 -/

/-- C35: mode 0 never exceeds `E_th`; mode 2 never exceeds `min(E_th, E_impact)` from the low-energy threshold
on, and never the impact energy below it; mode 1 is rejected. One energy per request. -/
theorem C35_caps (switch : ℤ) (eTh thLow : K) (d : HillDraws K) (eImp r : List K)
    (hu : ∀ k, 0 ≤ d.sqrtU k ∧ d.sqrtU k ≤ 1) (hpos : ∀ e ∈ eImp, 0 ≤ e)
    (h : hilleret switch eTh thLow d eImp = .ok r) :
    r.length = eImp.length ∧
    (switch = 0 ∧ (∀ e ∈ r, e ≤ eTh) ∨
     switch = 2 ∧ ∀ (k : ℕ) (eI e : K), eImp[k]? = some eI → r[k]? = some e →
      (thLow ≤ eI → e ≤ min eTh eI) ∧ (eI < thLow → 0 ≤ e ∧ e ≤ eI)) := by
  refine ⟨hilleret_length _ _ _ _ _ _ h, ?_⟩
  unfold hilleret at h
  by_cases h0 : switch = 0
  · rw [if_pos h0] at h
    left
    refine ⟨h0, ?_⟩
    split at h
    · cases h
    · next l hl =>
      cases h
      intro e he
      obtain ⟨p, hp, rfl⟩ := List.mem_map.1 he
      simpa using (enReject_spec _ _ _ _ hl).1 p hp
  rw [if_neg h0] at h
  by_cases h2 : switch = 2
  · rw [if_pos h2] at h
    right
    refine ⟨h2, ?_⟩
    dsimp only at h
    split at h
    · cases h
    · next l hl =>
      cases h
      obtain ⟨hbad, hfst⟩ := enReject_spec _ _ _ _ hl
      have hfst' : l.map (fun p => p.1) = eImp := by
        refine hfst.trans ?_
        apply List.ext_getElem <;> simp
      intro k eI e hI he
      rw [← hfst', List.getElem?_map] at hI
      rw [List.getElem?_mapIdx] at he
      cases hk : l[k]? with
      | none => rw [hk] at hI; simp at hI
      | some p =>
        rw [hk] at hI he
        simp only [Option.map_some, Option.some.injEq] at hI he
        have hpm : p ∈ l := List.mem_of_getElem? hk
        have hb := hbad p hpm
        have hp0 : 0 ≤ p.1 := hpos _ (by rw [← hfst']; exact List.mem_map.2 ⟨p, hpm, rfl⟩)
        rw [← hI, ← he]
        constructor
        · intro hlow
          rw [if_neg (not_lt.2 hlow)]
          simp only [not_lt.2 hlow, decide_false, Bool.not_false, Bool.and_true, decide_eq_false_iff_not, not_lt] at hb
          refine hb.trans ?_
          split
          · next hlt => exact le_min le_rfl hlt.le
          · next hlt => exact le_min (not_lt.1 hlt) le_rfl
        · intro hlow
          rw [if_pos hlow]
          exact ⟨mul_nonneg hp0 (hu k).1, mul_le_of_le_one_right hp0 (hu k).2⟩
  · rw [if_neg h2] at h
    split at h <;> cases h

/-- C35: mode 1 raises. -/
theorem C35_mode1_rejected (eTh thLow : K) (d : HillDraws K) (eImp : List K) :
    hilleret 1 eTh thLow d eImp = .error .valueError := rfl

/-- second sample drawn above the cap, redrawn; third impact below the low-energy threshold -/
example : ∃ r, hilleret 2 (35 : ℚ) 3 ⟨fun k => [10, 40, 50].getD k 0, [fun _ => 20], fun _ => 1 / 2⟩ [100, 30, 2] = .ok r ∧
    r = [10, 20, 1] :=
  exists_ok (by decide +kernel)

theorem enReject_draw {α : Type} (bad : α → K → Bool) (rounds : List (ℕ → K)) (es r : List (α × K))
    (h : enReject bad rounds es = .ok r) (i : ℕ) (p : α × K) (hp : r[i]? = some p) :
    (∃ q, es[i]? = some q ∧ q.2 = p.2) ∨ ∃ rd ∈ rounds, p.2 = rd i := by
  induction rounds generalizing es with
  | nil =>
    unfold enReject at h
    split at h
    · cases h; exact Or.inl ⟨p, hp, rfl⟩
    · cases h
  | cons rd rounds ih =>
    unfold enReject at h
    split at h
    · cases h; exact Or.inl ⟨p, hp, rfl⟩
    · rcases ih _ h with ⟨q, hq, hqp⟩ | ⟨rd', hm, hr⟩
      · unfold enRedraw at hq
        rw [List.getElem?_mapIdx] at hq
        cases hes : es[i]? with
        | none => rw [hes] at hq; cases hq
        | some w =>
          rw [hes] at hq
          simp only [Option.map_some, Option.some.injEq] at hq
          by_cases hb : bad w.1 w.2 = true
          · rw [if_pos hb] at hq
            exact Or.inr ⟨rd, List.mem_cons_self, by rw [← hqp, ← hq]⟩
          · rw [if_neg hb] at hq
            exact Or.inl ⟨w, rfl, by rw [hq]; exact hqp⟩
      · exact Or.inr ⟨rd', List.mem_cons_of_mem _ hm, hr⟩

/-- **C110**, photoelectrons of the Gaussian distribution: one energy per electron, never negative, each of them the
mean plus `sigma` times a standard normal number drawn for it. -/
theorem C110_gaussian (sigma mean : K) (n : ℕ) (g : ℕ → K) (rounds : List (ℕ → K)) (r : List K)
    (h : gaussEnergies sigma mean n g rounds = .ok r) :
    r.length = n ∧ (∀ e ∈ r, 0 ≤ e) ∧
    ∀ (i : ℕ) (e : K), r[i]? = some e → ∃ rd ∈ g :: rounds, e = mean + sigma * rd i := by
  unfold gaussEnergies at h
  split at h
  · cases h
  · next l hl =>
    cases h
    obtain ⟨hbad, hfst⟩ := enReject_spec _ _ _ _ hl
    refine ⟨?_, ?_, ?_⟩
    · have := congrArg List.length hfst
      simpa using this
    · intro e he
      obtain ⟨p, hp, rfl⟩ := List.mem_map.1 he
      simpa using hbad p hp
    · intro i e he
      rw [List.getElem?_map] at he
      cases hl' : l[i]? with
      | none => rw [hl'] at he; cases he
      | some p =>
        rw [hl'] at he
        simp only [Option.map_some, Option.some.injEq] at he
        rcases enReject_draw _ _ _ _ hl i p hl' with ⟨q, hq, hqp⟩ | ⟨rd, hrd, hr⟩
        · rw [List.getElem?_map] at hq
          cases hi : (List.range n)[i]? with
          | none => rw [hi] at hq; cases hq
          | some k =>
            rw [hi] at hq
            have hk : k = i := by
              have := List.getElem?_eq_some_iff.1 hi
              obtain ⟨h1, h2⟩ := this
              simpa using h2.symm
            simp only [Option.map_some, Option.some.injEq] at hq
            refine ⟨g, List.mem_cons_self, ?_⟩
            rw [← he, ← hqp, ← hq, hk]
            ring
        · obtain ⟨rd0, hm, rfl⟩ := List.mem_map.1 hrd
          refine ⟨rd0, List.mem_cons_of_mem _ hm, ?_⟩
          rw [← he, hr]
          ring

/-- second energy drawn negative, drawn again -/
example : ∃ r, gaussEnergies (2 : ℚ) 1 3 (fun k => [1, -3, 0].getD k 0) [fun _ => 1 / 2] = .ok r ∧ r = [3, 2, 1] :=
  exists_ok (by decide +kernel)

/-- **C110**, photoelectrons of the rectangular distribution: one energy per electron, at most half the width away from
the mean, hence not negative when the distribution is not wider than twice its mean; opposite draws give energies
symmetric about the mean. Missing: wider distributions, see `C110_negative_violated`. -/
theorem C110_rectangular_partial (sigma mean : K) (hs : 0 ≤ sigma) (n : ℕ) (u : ℕ → K) (hu : ∀ i, 0 ≤ u i ∧ u i ≤ 1) :
    (rectEnergies sigma mean n u).length = n ∧
    (∀ e ∈ rectEnergies sigma mean n u, |e - mean| ≤ sigma / 2 ∧ (sigma ≤ 2 * mean → 0 ≤ e)) ∧
    ∀ (i : ℕ) (e e' : K), (rectEnergies sigma mean n u)[i]? = some e →
      (rectEnergies sigma mean n (fun k => 1 - u k))[i]? = some e' → (e + e') / 2 = mean := by
  refine ⟨by simp [rectEnergies], ?_, ?_⟩
  · intro e he
    obtain ⟨k, -, rfl⟩ := List.mem_map.1 he
    obtain ⟨h1, h2⟩ := hu k
    refine ⟨?_, fun h => by nlinarith⟩
    rw [abs_le]
    constructor <;> nlinarith
  · intro i e e' h1 h2
    by_cases hi : i < n
    · simp only [rectEnergies, List.getElem?_map, List.getElem?_range hi, Option.map_some, Option.some.injEq] at h1 h2
      rw [← h1, ← h2]
      ring
    · have hi' : (List.range n)[i]? = none := by simpa using hi
      simp only [rectEnergies, List.getElem?_map, hi'] at h1
      cases h1

/-- **C110**, photoelectrons of the monoenergetic distribution: all have the mean energy. -/
theorem C110_monoenergetic (mean : K) (n : ℕ) :
    (monoEnergies mean n).length = n ∧ ∀ e ∈ monoEnergies mean n, e = mean := by
  unfold monoEnergies
  simp

/-- **C110 does not hold for the rectangular distribution** wider than twice its mean: energies are negative, for which
the emission velocity is not a number. -/
theorem C110_negative_violated : ∃ e ∈ rectEnergies (4 : ℚ) 1 1 (fun _ => 0), e < 0 :=
  ⟨-1, by decide +kernel, by decide +kernel⟩

example : rectEnergies (4 : ℚ) 5 3 (fun k => [0, 1 / 2, 1].getD k 0) = [3, 5, 7] := by decide +kernel

/-! ## C34 -/

section real

open Real

/-- C34: with a unit normal and a non-negative energy the kinetic energy of the emitted electron is the drawn
one (`c = 2 qe/m`, so `v^2 = c * energy`), and it moves into the chamber. -/
theorem C34_emission (a : AngleDist) (c en nx ny u0 u1 : ℝ) (hc : 0 ≤ c) (he : 0 ≤ en)
    (hn : nx * nx + ny * ny = 1) (hu : 0 ≤ u0 ∧ u0 ≤ 1) :
    let v := a.vel c en nx ny u0 u1
    v.1 * v.1 + v.2.1 * v.2.1 + v.2.2 * v.2.2 = c * en ∧ 0 ≤ v.1 * nx + v.2.1 * ny := by
  have hgen : ∀ st : ℝ, 0 ≤ st → st ≤ 1 →
      (velAngle c en nx ny st u1).1 * (velAngle c en nx ny st u1).1
        + (velAngle c en nx ny st u1).2.1 * (velAngle c en nx ny st u1).2.1
        + (velAngle c en nx ny st u1).2.2 * (velAngle c en nx ny st u1).2.2 = c * en ∧
      0 ≤ (velAngle c en nx ny st u1).1 * nx + (velAngle c en nx ny st u1).2.1 * ny := by
    intro st h0 h1
    simp only [velAngle]
    have hv : √(c * en) * √(c * en) = c * en := mul_self_sqrt (mul_nonneg hc he)
    have hct : √(1 - st ^ 2) * √(1 - st ^ 2) = 1 - st ^ 2 := mul_self_sqrt (by nlinarith)
    have hsc := sin_sq_add_cos_sq (u1 * 2 * π)
    have hVn : 0 ≤ √(c * en) := sqrt_nonneg _
    generalize √(c * en) = V at *
    generalize hS : √(1 - st ^ 2) = C at *
    generalize sin (u1 * 2 * π) = s at *
    generalize cos (u1 * 2 * π) = q at *
    constructor
    · rw [← hv]
      linear_combination (V * V * (C * C + st ^ 2 * s ^ 2)) * hn + (V * V) * hct + (V * V * st ^ 2) * hsc
    · have : V * (C * nx + st * s * ny) * nx + V * (C * ny - st * s * nx) * ny = V * C := by
        linear_combination (V * C) * hn
      rw [this]
      exact mul_nonneg hVn (by rw [← hS]; exact sqrt_nonneg _)
  cases a with
  | cosine3D =>
    exact hgen (√u0) (sqrt_nonneg _) (sqrt_le_one.2 hu.2)
  | cosine2D => exact hgen u0 hu.1 hu.2
  | normal =>
    simp only [AngleDist.vel, velNormal]
    have hv : √(c * en) * √(c * en) = c * en := mul_self_sqrt (mul_nonneg hc he)
    constructor
    · linear_combination (√(c * en) * √(c * en)) * hn + hv
    · have : √(c * en) * nx * nx + √(c * en) * ny * ny = √(c * en) := by
        linear_combination (√(c * en)) * hn
      rw [this]; exact sqrt_nonneg _

/-- C34: normal emission is along the normal. -/
theorem C34_normal (c en nx ny u0 u1 : ℝ) :
    AngleDist.normal.vel c en nx ny u0 u1 = (√(c * en) * nx, √(c * en) * ny, 0) := rfl

/-- C34: an unknown distribution name is rejected. -/
theorem C34_names (name : String) (a : AngleDist) :
    angleDistOf name = .ok a ↔ (name = "cosine_3D" ∧ a = .cosine3D) ∨ (name = "cosine_2D" ∧ a = .cosine2D) ∨
      (name = "normal_emission" ∧ a = .normal) := by
  unfold angleDistOf
  by_cases h1 : name = "cosine_3D"
  · subst h1; simp [eq_comm]
  by_cases h2 : name = "cosine_2D"
  · subst h2; simp [eq_comm]
  by_cases h3 : name = "normal_emission"
  · subst h3; simp [eq_comm]
  simp [h1, h2, h3]

example : (3 / 5 : ℝ) * (3 / 5) + (4 / 5) * (4 / 5) = 1 ∧ (0 : ℝ) ≤ 1 / 2 ∧ (1 / 2 : ℝ) ≤ 1 := by norm_num

end real

end PyECLOUD
