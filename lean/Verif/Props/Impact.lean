import Verif.Props.MPSystem
import Verif.Lemmas.ImpactHist
import Verif.Lemmas.FurmanPivi

/-!
# Properties of the impact step (C16-C19) and of the emission models' bookkeeping (C24, C25, C30-C32)

`impactStep` is `backtrack_and_second_emiss`; the chamber and the emission model are parameters, the
emission models of the code are shown to satisfy what the impact step needs (`SeyOk`).
-/

set_option linter.unusedSectionVars false

namespace PyECLOUD

variable {K : Type} [Field K] [LinearOrder K] [FloorRing K] [IsStrictOrderedRing K]

/-! ## concrete data for the examples -/

/-- slab `|x| < 5/2`: a macroparticle that leaves is put back on the wall it crossed -/
def slab : Chamber ℚ where
  outside := fun x _ => decide (5 / 2 < |x|)
  hit := fun _ q => .ok (if 0 < q.1 then ⟨5 / 2, q.2.1, q.2.2, -1, 0, 0⟩ else ⟨-5 / 2, q.2.1, q.2.2, 1, 0, 1⟩)

/-- settings and empty histograms for the examples -/
def slabCfg : ImpCfg ℚ where
  ke := 1
  biasX := -3
  dxHist := 1
  scrubTh := 10
  enMax := 100
  dEn := 10
  flagSeg := true
  flagEnSeg := true
  flagCos := true
  cosW := 1 / 2
  dtLife := 1

def slabHist : ImpHist ℚ where
  tot := [0, 0, 0, 0, 0, 0, 0]
  scrub := [0, 0, 0, 0, 0, 0, 0]
  energ := [0, 0, 0, 0, 0, 0, 0]
  cos := [0, 0, 0]
  enLine := [0, 0]
  life := [0, 0, 0]
  segNel := [0, 0]
  segEmit := [0, 0]
  segEn := [0, 0]
  segEnLines := [[0, 0], [0, 0]]

/-- ECLOUD-type emission: yield 3/2, everything true secondary, energy 1, emission along the normal -/
def slabSey : ℚ → List (Impact ℚ) → Except PyErr (SeyOut ℚ) :=
  seyEcloudModel (fun _ i => (i.nel * (3 / 2), false)) (fun l => .ok (l.map (fun _ => 1)))
    (fun l => .ok (l.map (fun _ => 1))) (fun _ e nx ny => (e * nx, e * ny, 0)) (fun _ e nx ny => (e * nx, e * ny, 0))

/-- `toy` with room for more macroparticles, positions before the step -/
def toyOld : List (ℚ × ℚ × ℚ) := [(1, 0, 0), (2, 1, 0), (2, 0, 0)]

theorem slabSey_ok (th : ℚ) (imps : List (Impact ℚ)) (out : SeyOut ℚ) (h : slabSey th imps = .ok out) :
    SeyOk imps out := by
  unfold slabSey seyEcloudModel at h
  have := (seyECLOUD_out _ _ _ _ _ (by intro l r h; simp only [Except.ok.injEq] at h; rw [← h]; simp)
    (by intro l r h; simp only [Except.ok.injEq] at h; rw [← h]; simp) _ _ h).seyOk
  rw [show (imps.mapIdx fun k i => (i, i.nel * (3 / 2), false)).map (fun e : Impact ℚ × ℚ × Bool => e.1) = imps by
    apply List.ext_getElem <;> simp] at this
  exact this

/-- the run used in the examples below: one macroparticle hits the wall and is split in three -/
theorem slab_run : ∃ r, impactStep (fun v => v) slabCfg slab slabSey toy toyOld 20 slabHist = .ok r ∧
    (r.1.nmp = 5 ∧ r.2.2.nelImp = 20 ∧ r.2.2.nelEmit = 30) ∧
    (totalCharge r.1.live = 41 ∧ r.2.1.tot = [0, 0, 0, 0, 0, 10, 10]) :=
  exists_ok (by decide +kernel)

/-! ## C16 -/

/-- C16: a live macroparticle that is inside the chamber keeps its slot and all its attributes; if none is
outside the cloud and the histograms do not change; thresholds are never changed. (Arrays not full.) -/
theorem C16_inside_untouched (sq : K → K) (c : ImpCfg K) (ch : Chamber K)
    (sey : K → List (Impact K) → Except PyErr (SeyOut K)) (s : MPs K) (hwf : s.WF) (hroom : s.nmp < s.cap)
    (old : List (K × K × K)) (tt : K) (h : ImpHist K) (s' : MPs K) (h' : ImpHist K) (n : ImpCount K)
    (hsey : ∀ imps out, sey s.split imps = .ok out → SeyOk imps out)
    (hok : impactStep sq c ch sey s old tt h = .ok (s', h', n)) :
    (∀ (k : ℕ) (p : Particle K), s.live[k]? = some p → ch.outside (p .x) (p .y) = false → s'.live[k]? = some p) ∧
    ((∀ p ∈ s.live, ch.outside (p .x) (p .y) = false) → s' = s ∧ h' = h ∧ n = ⟨0, 0, 0, 0⟩) ∧
    (s'.ref = s.ref ∧ s'.split = s.split ∧ s'.clTh = s.clTh) ∧ s'.WF ∧ s'.cap = s.cap := by
  have hl : ∀ imps out, sey s.split imps = .ok out → out.replace.length = imps.length :=
    fun imps out ho => (hsey imps out ho).replace.length_eq.symm
  rcases impactStep_cases sq c ch sey s hwf hroom old tt h s' h' n hl hok with ⟨he, rfl, rfl, rfl⟩ | ⟨hne, -, hits, imps, out, r⟩
  · exact ⟨fun k p hp _ => hp, fun _ => ⟨rfl, rfl, rfl⟩, ⟨rfl, rfl, rfl⟩, hwf, rfl⟩
  · refine ⟨?_, ?_, ⟨r.sizes.1, r.sizes.2.1, r.sizes.2.2.1⟩, r.wf, r.cap⟩
    · intro k p hp ho
      have hk : k < s.live.length := (List.getElem?_eq_some_iff.1 hp).1
      rw [r.live, List.getElem?_append_left (by rw [maskPut_length]; exact hk), maskPut_getElem? _ _ _ _ ?_, hp]
      unfold outMask
      rw [List.getD_eq_getElem?_getD, List.getElem?_map, hp]
      simpa [Chamber.out] using ho
    · intro hall
      exact absurd (List.filter_eq_nil_iff.2 (fun p hp => by
        have := hall p hp
        show ¬ ch.outside (p .x) (p .y) = true
        rw [this]; simp)) hne

example : toy.WF ∧ toy.nmp < toy.cap ∧ (toy.live.filter slab.out).length = 1 ∧
    (∀ imps out, slabSey toy.split imps = .ok out → SeyOk imps out) :=
  ⟨toy_wf, by decide, by decide +kernel, fun imps out => slabSey_ok _ imps out⟩

/-! ## C17 -/

/-- C17: if the chamber's impact routine returns points inside for trajectories that start inside, then
after the step every live macroparticle (replaced and newly emitted ones included) is inside. -/
theorem C17_all_inside (sq : K → K) (c : ImpCfg K) (ch : Chamber K)
    (sey : K → List (Impact K) → Except PyErr (SeyOut K)) (s : MPs K) (hwf : s.WF) (hroom : s.nmp < s.cap)
    (old : List (K × K × K)) (tt : K) (h : ImpHist K) (s' : MPs K) (h' : ImpHist K) (n : ImpCount K)
    (hsey : ∀ imps out, sey s.split imps = .ok out → SeyOk imps out)
    (hold : ∀ o ∈ old, ch.outside o.1 o.2.1 = false) (horig : ch.outside 0 0 = false)
    (hhit : ∀ o q b, ch.outside o.1 o.2.1 = false → ch.outside q.1 q.2.1 = true → ch.hit o q = .ok b →
      ch.outside b.x b.y = false)
    (hok : impactStep sq c ch sey s old tt h = .ok (s', h', n)) :
    ∀ p ∈ s'.live, ch.outside (p .x) (p .y) = false := by
  have hl : ∀ imps out, sey s.split imps = .ok out → out.replace.length = imps.length :=
    fun imps out ho => (hsey imps out ho).replace.length_eq.symm
  rcases impactStep_cases sq c ch sey s hwf hroom old tt h s' h' n hl hok with ⟨he, rfl, rfl, rfl⟩ | ⟨hne, -, hits, imps, out, r⟩
  · intro p hp
    have := List.filter_eq_nil_iff.1 he p hp
    simpa [Chamber.out] using this
  · have hS := hsey imps out r.sey
    have hrepl : (out.replace.map (Emit.particle s.lifetime tt)).length = countTrue (outMask s ch) := by
      rw [List.length_map, ← hS.replace.length_eq, r.len, countTrue_outMask]
    -- impact points are inside
    have himp : ∀ i ∈ imps, ch.outside i.x i.y = false := by
      intro i hi
      rw [r.imps] at hi
      obtain ⟨q, hq, rfl⟩ := List.mem_map.1 hi
      have hb : q.2 ∈ hits := (List.of_mem_zip hq).2
      obtain ⟨k, hk, hkeq⟩ := List.getElem_of_mem hb
      have hlen := r.hits.length_eq
      have hr := (List.forall₂_iff_get.1 r.hits).2 k (by rw [hlen]; exact hk) hk
      simp only [List.get_eq_getElem, List.getElem_zip, List.getElem_map] at hr
      rw [← hkeq]
      refine hhit _ _ _ ?_ ?_ hr
      · exact hold _ ((maskSel_sublist _ _).subset (List.getElem_mem _))
      · have hm : (s.live.filter ch.out)[k]'(by
            have := hlen; rw [List.length_zip, List.length_map] at this; omega) ∈ s.live.filter ch.out :=
          List.getElem_mem _
        simpa [Chamber.out] using (List.mem_filter.1 hm).2
    intro p hp
    rw [r.live] at hp
    rcases List.mem_append.1 hp with hp | hp
    · rcases maskPut_mem _ _ _ hrepl p hp with hp | ⟨k, h1, h2⟩
      · obtain ⟨e, he, rfl⟩ := List.mem_map.1 hp
        obtain ⟨k, hk, hkeq⟩ := List.getElem_of_mem he
        have hll := hS.replace.length_eq
        have hr := (List.forall₂_iff_get.1 hS.replace).2 k (by rw [hll]; exact hk) hk
        simp only [List.get_eq_getElem] at hr
        rw [hkeq] at hr
        show ch.outside e.x e.y = false
        rcases hr with hr | hr
        · rw [hr.1, hr.2.1]
          exact himp _ (List.getElem_mem _)
        · rw [hr.2.1, hr.2.2.1]; exact horig
      · unfold outMask at h2
        rw [List.getD_eq_getElem?_getD, List.getElem?_map, h1] at h2
        simpa [Chamber.out] using h2
    · obtain ⟨e, he, rfl⟩ := List.mem_map.1 hp
      obtain ⟨i, hi, h1, h2, -⟩ := hS.new e he
      show ch.outside e.x e.y = false
      rw [h1, h2]; exact himp i hi

example : (∀ o ∈ toyOld, slab.outside o.1 o.2.1 = false) ∧ slab.outside 0 0 = false ∧
    (∀ o q b, slab.outside o.1 o.2.1 = false → slab.outside q.1 q.2.1 = true → slab.hit o q = .ok b →
      slab.outside b.x b.y = false) := by
  refine ⟨by decide +kernel, by decide +kernel, ?_⟩
  intro o q b _ _ hb
  simp only [slab, Except.ok.injEq] at hb ⊢
  rw [← hb]
  split <;> simp [abs_of_pos, abs_div]

/-! ## C18 -/

/-- C18: charge after = charge before - reported impacting charge + reported emitted charge, and the
reported impacting charge is that of the macroparticles found outside. -/
theorem C18_charge_balance (sq : K → K) (c : ImpCfg K) (ch : Chamber K)
    (sey : K → List (Impact K) → Except PyErr (SeyOut K)) (s : MPs K) (hwf : s.WF) (hroom : s.nmp < s.cap)
    (old : List (K × K × K)) (tt : K) (h : ImpHist K) (s' : MPs K) (h' : ImpHist K) (n : ImpCount K)
    (hsey : ∀ imps out, sey s.split imps = .ok out → SeyOk imps out)
    (hok : impactStep sq c ch sey s old tt h = .ok (s', h', n)) :
    totalCharge s'.live = totalCharge s.live - n.nelImp + n.nelEmit ∧
    n.nelImp = totalCharge (s.live.filter (fun p => ch.outside (p .x) (p .y))) := by
  have hl : ∀ imps out, sey s.split imps = .ok out → out.replace.length = imps.length :=
    fun imps out ho => (hsey imps out ho).replace.length_eq.symm
  rcases impactStep_cases sq c ch sey s hwf hroom old tt h s' h' n hl hok with ⟨he, rfl, rfl, rfl⟩ | ⟨hne, -, hits, imps, out, r⟩
  · refine ⟨by simp, ?_⟩
    have : s'.live.filter (fun p => ch.outside (p .x) (p .y)) = [] := he
    rw [this]; rfl
  · have hS := hsey imps out r.sey
    have hrepl : ((out.replace.map (Emit.particle s.lifetime tt)).map (fun p => p .nel)).length = countTrue (outMask s ch) := by
      rw [List.length_map, List.length_map, ← hS.replace.length_eq, r.len, countTrue_outMask]
    have hc := r.charge
    have hn1 : n.nelImp = (imps.map (fun i => i.nel)).sum := by rw [r.count]
    have hn2 : n.nelEmit = out.nelEmit.sum := by rw [r.count]
    refine ⟨?_, by rw [hn1, hc]; rfl⟩
    have hsel : maskSel (s.live.map (fun p => p .nel)) (outMask s ch) = (s.live.filter ch.out).map (fun p => p .nel) := by
      rw [← maskSel_map]; unfold outMask; rw [maskSel_map_self]
    unfold totalCharge at hc ⊢
    rw [r.live, List.map_append, List.sum_append, maskPut_map,
      maskPut_sum _ _ _ (by rw [outMask_length]; simp) hrepl, hn1, hn2, hS.charge, hsel, hc, List.map_map, List.map_map]
    have e1 : out.replace.map ((fun p : Particle K => p .nel) ∘ Emit.particle s.lifetime tt) =
        out.replace.map (fun e => e.nel) := rfl
    have e2 : out.new.map ((fun p : Particle K => p .nel) ∘ Emit.particle s.lifetime tt) =
        out.new.map (fun e => e.nel) := rfl
    rw [e1, e2]; ring

/-- C18, emission models: the ECLOUD family (any `SEY_process`, any energy generator that returns one
energy per request). -/
theorem C18_ecloud_model (proc : ℕ → Impact K → K × Bool) (hill1 hill2 : List K → Except PyErr (List K))
    (ang1 ang2 : ℕ → K → K → K → K × K × K) (th : K)
    (hl1 : ∀ l r, hill1 l = .ok r → r.length = l.length) (hl2 : ∀ l r, hill2 l = .ok r → r.length = l.length)
    (imps : List (Impact K)) (out : SeyOut K)
    (h : seyEcloudModel proc hill1 hill2 ang1 ang2 th imps = .ok out) : SeyOk imps out := by
  have := (seyECLOUD_out hill1 hill2 ang1 ang2 th hl1 hl2 _ out h).seyOk
  rw [show (imps.mapIdx fun k i => (i, proc k i)).map (fun e : Impact K × K × Bool => e.1) = imps by
    apply List.ext_getElem <;> simp] at this
  exact this

theorem maskPut_kind {α : Type} (p : α → Bool) (l : List α) (ns : List ℕ) (k : ℕ) (a : α) (h : l[k]? = some a)
    (hp : p a = false) : (maskPut (List.replicate l.length 0) (l.map p) ns)[k]? = some 0 := by
  rw [maskPut_getElem?]
  · have := (List.getElem?_eq_some_iff.1 h).1
    rw [List.getElem?_replicate]; simp [this]
  · rw [List.getD_eq_getElem?_getD, List.getElem?_map, h]; simp [hp]

/-- the Furman-Pivi model through its events: each impact gets a kind from its yields and draw, and a
truncated Poisson number if it is a true secondary -/
theorem seyFPModel_events (c : FPCfg) (g : FPGens K) (yields : Impact K → K × K) (u : ℕ → K)
    (first : ℕ → ℕ) (draws : ℕ → ℕ → ℕ) (imps : List (Impact K)) (r : SeyOut K × List ℕ)
    (h : seyFPModel c g yields u first draws imps = .ok r) :
    ∃ evs : List (FPEvent K), evs.map (fun e => e.imp) = imps ∧ (∀ e ∈ evs, e.Ok) ∧
      evs.map (fun e => e.kind) = imps.mapIdx (fun k i => fpKind c.excludeRediffused (yields i).1 (yields i).2 (u k)) ∧
      (∀ e ∈ evs, e.n ≤ c.mCut) ∧ seyFP c g evs = .ok r := by
  unfold seyFPModel at h
  split at h
  · cases h
  next kinds hk =>
  have hkl : kinds = (imps.map yields).mapIdx (fun k d => fpKind c.excludeRediffused d.1 d.2 (u k)) := by
    unfold fpProcess at hk
    split at hk
    · cases hk
    · cases hk; rfl
  have hlen : kinds.length = imps.length := by rw [hkl]; simp
  dsimp only at h
  split at h
  · cases h
  next ns hns =>
  obtain ⟨hcut, hnl⟩ := poissonCut_spec _ _ _ _ _ _ hns
  have hnl' : ns.length = countTrue (kinds.map (fun k => decide (k = .true'))) := by simpa using hnl
  have hml : (maskPut (List.replicate imps.length 0) (kinds.map (fun k => decide (k = .true'))) ns).length = imps.length := by
    rw [maskPut_length, List.length_replicate]
  refine ⟨_, ?_, ?_, ?_, ?_, h⟩
  · rw [List.map_map]
    show (imps.zip _).map (fun q => q.1) = imps
    rw [List.map_fst_zip (by rw [List.length_zip, hlen, hml, Nat.min_self])]
  · intro e he hne
    obtain ⟨q, hq, rfl⟩ := List.mem_map.1 he
    obtain ⟨k, hk, rfl⟩ := List.getElem_of_mem hq
    simp only [List.getElem_zip] at hne ⊢
    have hk' : k < kinds.length := by rw [List.length_zip, List.length_zip] at hk; omega
    have := maskPut_kind (fun k => decide (k = FPKind.true')) kinds ns k kinds[k] (List.getElem?_eq_getElem hk')
      (by simpa using hne)
    rw [hlen] at this
    rw [List.getElem?_eq_getElem (by omega)] at this
    simpa using this
  · rw [List.map_map, hkl]
    have : (fun e : FPEvent K => e.kind) ∘ (fun q : Impact K × FPKind × ℕ => (⟨q.1, q.2.1, q.2.2⟩ : FPEvent K)) =
        fun q => q.2.1 := rfl
    rw [this, ← hkl]
    apply List.ext_getElem
    · simp [hlen, hml]
    · intro i h1 h2
      simp only [List.getElem_map, List.getElem_zip, List.getElem_mapIdx, hkl]
  · intro e he
    obtain ⟨q, hq, rfl⟩ := List.mem_map.1 he
    have h2 : q.2.2 ∈ maskPut (List.replicate imps.length 0) (kinds.map (fun k => decide (k = .true'))) ns :=
      (List.of_mem_zip (List.of_mem_zip hq).2).2
    rcases maskPut_mem _ _ _ hnl' _ h2 with h3 | ⟨i, h3, -⟩
    · exact hcut _ h3
    · rw [List.getElem?_replicate] at h3
      split at h3
      · simp at h3; show q.2.2 ≤ c.mCut; omega
      · simp at h3

/-- C18, emission models: Furman-Pivi. -/
theorem C18_furman_pivi_model (c : FPCfg) (g : FPGens K) (hg : g.Ok) (yields : Impact K → K × K) (u : ℕ → K)
    (first : ℕ → ℕ) (draws : ℕ → ℕ → ℕ) (imps : List (Impact K)) (out : SeyOut K) (codes : List ℕ)
    (h : seyFPModel c g yields u first draws imps = .ok (out, codes)) : SeyOk imps out := by
  obtain ⟨evs, h1, h2, -, -, h5⟩ := seyFPModel_events c g yields u first draws imps _ h
  have := (seyFP_out c g hg evs h2 _ h5).seyOk h2
  rw [h1] at this
  exact this

/-- C18, emission models: perfect absorber. -/
theorem C18_absorber_model (imps : List (Impact K)) : SeyOk imps (seyAbsorber imps) := absorber_seyOk imps

example : ∃ r, impactStep (fun v => v) slabCfg slab slabSey toy toyOld 20 slabHist = .ok r ∧
    totalCharge toy.live = 31 ∧ totalCharge r.1.live = 31 - r.2.2.nelImp + r.2.2.nelEmit ∧ r.2.2.nelImp = 20 ∧
    r.2.2.nelEmit = 30 :=
  exists_ok (by decide +kernel)

/-! ## C19 -/

/-- the part of the impacting charge that reaches bin `k` of a position histogram with `n` bins -/
def binCharge (c : ImpCfg K) (n : ℕ) (imps : List (Impact K)) (k : ℕ) : K :=
  (imps.map (fun i => i.nel * cicWeight n ((i.x - c.biasX) / c.dxHist) k)).sum

/-- C19: every impacting electron enters once the position histogram, the energy spectrum and (when every
impact has a segment) the per-segment histogram; the scrubbing histogram receives exactly the impacts with
energy above the threshold, so it never grows by more than the position histogram in any bin; the energy
histogram receives impacting minus emitted energy. -/
theorem C19_histograms (sq : K → K) (c : ImpCfg K) (ch : Chamber K)
    (sey : K → List (Impact K) → Except PyErr (SeyOut K)) (s : MPs K) (hwf : s.WF) (hroom : s.nmp < s.cap)
    (old : List (K × K × K)) (tt : K) (h : ImpHist K) (s' : MPs K) (h' : ImpHist K) (n : ImpCount K)
    (hsey : ∀ imps out, sey s.split imps = .ok out → SeyOk imps out)
    (hok : impactStep sq c ch sey s old tt h = .ok (s', h', n)) :
    ∃ imps : List (Impact K),
      List.Forall₂ (ImpactOf sq c.ke) (s.live.filter (fun p => ch.outside (p .x) (p .y))) imps ∧
      n.nelImp = (imps.map (fun i => i.nel)).sum ∧
      h'.tot.sum = h.tot.sum + n.nelImp ∧
      h'.enLine.sum = h.enLine.sum + n.nelImp ∧
      h'.energ.sum = h.energ.sum + n.enImp - n.enEmit ∧
      (c.flagSeg = true → (∀ i ∈ imps, 0 ≤ i.seg ∧ i.seg < (h.segNel.length : ℤ)) →
        h'.segNel.sum = h.segNel.sum + n.nelImp) ∧
      (c.flagSeg = true → ∀ k < h.segNel.length, h'.segNel.getD k 0 = h.segNel.getD k 0 +
        ((imps.filter (fun i => decide (i.seg = (k : ℤ)))).map (fun i => i.nel)).sum) ∧
      (c.flagSeg = true → h.segEmit.length = h.segNel.length →
        (∀ i ∈ imps, 0 ≤ i.seg ∧ i.seg < (h.segNel.length : ℤ)) → h'.segEmit.sum = h.segEmit.sum + n.nelEmit) ∧
      (c.flagSeg = false → h'.segNel = h.segNel ∧ h'.segEmit = h.segEmit ∧ h'.segEn = h.segEn) ∧
      (∀ k < h.tot.length, h'.tot.getD k 0 = h.tot.getD k 0 + binCharge c h.tot.length imps k) ∧
      (∀ k < h.scrub.length, h'.scrub.getD k 0 = h.scrub.getD k 0 +
        binCharge c h.scrub.length (imps.filter (fun i => decide (c.scrubTh < i.en))) k) ∧
      (h.scrub.length = h.tot.length → (∀ p ∈ s.live, 0 ≤ p .nel) → ∀ k < h.tot.length,
        h'.scrub.getD k 0 - h.scrub.getD k 0 ≤ h'.tot.getD k 0 - h.tot.getD k 0) := by
  have hl : ∀ imps out, sey s.split imps = .ok out → out.replace.length = imps.length :=
    fun imps out ho => (hsey imps out ho).replace.length_eq.symm
  rcases impactStep_cases sq c ch sey s hwf hroom old tt h s' h' n hl hok with ⟨he, rfl, rfl, rfl⟩ | ⟨hne, -, hits, imps, out, r⟩
  · refine ⟨[], ?_, by simp, by simp, by simp, by simp, by simp, by simp, by simp, by simp, by simp [binCharge],
      by simp [binCharge], by simp⟩
    have : s'.live.filter (fun p => ch.outside (p .x) (p .y)) = [] := he
    rw [this]; exact List.Forall₂.nil
  have hS := hsey imps out r.sey
  obtain ⟨h1, h2, hh1, hh2, hnew⟩ := r.hists
  obtain ⟨q, -⟩ := impactHists_run _ _ _ _ _ _ _ hh1
  obtain ⟨⟨a1, a2, a3, a4, a5, a6, a7⟩, aE, aS, aSe⟩ := emit_same sq c h1 h2 h' out.replace out.new hh2 hnew
  have hn1 : n.nelImp = (imps.map (fun i => i.nel)).sum := by rw [r.count]
  have hn2 : n.nelEmit = out.nelEmit.sum := by rw [r.count]
  have hn3 : n.enImp = (imps.map (fun i => i.en * i.nel)).sum := by rw [r.count]
  have hn4 : n.enEmit = (out.replace.map (fun e => e.energy sq c.ke * e.nel)).sum
      + (out.new.map (fun e => e.energy sq c.ke * e.nel)).sum := by rw [r.count]
  have hof := r.impactOf
  have hbin1 : ∀ k < h.tot.length, h'.tot.getD k 0 = h.tot.getD k 0 + binCharge c h.tot.length imps k := by
    intro k hk
    rw [a1, computeHist_getD _ _ _ _ _ q.tot k hk, List.map_map]; rfl
  have hbin2 : ∀ k < h.scrub.length, h'.scrub.getD k 0 = h.scrub.getD k 0 +
        binCharge c h.scrub.length (imps.filter (fun i => decide (c.scrubTh < i.en))) k := by
    intro k hk
    rw [a2, computeHist_getD _ _ _ _ _ q.scrub k hk, List.map_map]
    congr 1
    unfold binCharge
    generalize h.scrub.length = m
    clear * -
    induction imps with
    | nil => rfl
    | cons i imps ih =>
      simp only [List.map_cons, List.sum_cons, List.filter_cons]
      rw [ih]
      by_cases hi : c.scrubTh < i.en
      · simp [hi]
      · simp [hi]
  refine ⟨imps, hof, hn1, ?_, ?_, ?_, ?_, ?_, ?_, ?_, hbin1, hbin2, ?_⟩
  · rw [a1, computeHist_sum _ _ _ _ _ q.tot, hn1, List.map_map]; rfl
  · rw [a4, computeHist_sum _ _ _ _ _ q.enLine, hn1, List.map_map]; rfl
  · rw [aE, computeHist_sum _ _ _ _ _ q.energ, hn3, hn4, List.map_map]
    have : (imps.map ((fun x : K × K => x.2) ∘ fun i => (i.x, i.nel * i.en))).sum = (imps.map (fun i => i.en * i.nel)).sum := by
      congr 1
      apply List.map_congr_left
      intro i _
      simp [mul_comm]
    rw [this]
  · intro hf hin
    rw [a6, q.segNel, if_pos hf, updateSeg_sum, hn1]
    congr 2
    rw [List.filter_eq_self.2, List.map_map]
    · rfl
    · intro p hp
      obtain ⟨i, hi, rfl⟩ := List.mem_map.1 hp
      simpa using hin i hi
  · intro hf k hk
    rw [a6, q.segNel, if_pos hf, updateSeg_getD _ _ _ hk, List.filter_map, List.map_map]
    rfl
  · intro hf hlen hin
    rw [aS, if_pos hf, updateSeg_sum, q.segEmit, hn2, hS.charge]
    congr 1
    rw [List.filter_eq_self.2, List.map_map]
    · show ((out.replace ++ out.new).map (fun e => e.nel)).sum = _
      rw [List.map_append, List.sum_append]
    · intro p hp
      obtain ⟨e, he, rfl⟩ := List.mem_map.1 hp
      have : ∃ i ∈ imps, e.seg = i.seg := by
        rcases List.mem_append.1 he with he | he
        · obtain ⟨k, hk, hkeq⟩ := List.getElem_of_mem he
          have hll := hS.replace.length_eq
          have hr := (List.forall₂_iff_get.1 hS.replace).2 k (by rw [hll]; exact hk) hk
          simp only [List.get_eq_getElem] at hr
          rw [hkeq] at hr
          refine ⟨_, List.getElem_mem (by rw [hll]; exact hk), ?_⟩
          rcases hr with hr | hr
          · exact hr.2.2.2
          · exact hr.2.2.2.2
        · obtain ⟨i, hi, -, -, -, h4⟩ := hS.new e he
          exact ⟨i, hi, h4⟩
      obtain ⟨i, hi, hseg⟩ := this
      have := hin i hi
      simp only [hseg, hlen, decide_eq_true_eq]
      exact this
  · intro hf
    refine ⟨by rw [a6, q.segNel, hf]; rfl, by rw [aS, hf, q.segEmit]; rfl, by rw [aSe, hf, q.segEn, hf]; rfl⟩
  · intro hlen hpos k hk
    rw [hbin1 k hk, hbin2 k (by rw [hlen]; exact hk), hlen, add_sub_cancel_left, add_sub_cancel_left]
    have hp : ∀ i ∈ imps, 0 ≤ i.nel := by
      intro i hi
      obtain ⟨k, hk, hkeq⟩ := List.getElem_of_mem hi
      have hll := hof.length_eq
      have hr := (List.forall₂_iff_get.1 hof).2 k (by rw [hll]; exact hk) hk
      simp only [List.get_eq_getElem] at hr
      rw [← hkeq, hr.1]
      exact hpos _ (List.mem_filter.1 (List.getElem_mem _)).1
    unfold binCharge
    generalize h.tot.length = m
    clear * - hp
    induction imps with
    | nil => simp
    | cons i imps ih =>
      have hi := ih (fun i hi => hp i (by simp [hi]))
      have h0 : 0 ≤ i.nel * cicWeight m ((i.x - c.biasX) / c.dxHist) k :=
        mul_nonneg (hp i (by simp)) (le_max_left _ _)
      simp only [List.map_cons, List.sum_cons, List.filter_cons]
      split
      · simp only [List.map_cons, List.sum_cons]; linarith
      · linarith

example : ∃ r, impactStep (fun v => v) slabCfg slab slabSey toy toyOld 20 slabHist = .ok r ∧
    r.2.1.tot.sum = 20 ∧ r.2.1.scrub.sum = 20 ∧ r.2.1.segNel = [20, 0] ∧ r.2.1.segEmit = [30, 0] ∧
    r.2.1.life = [0, 0, 20] :=
  exists_ok (by decide +kernel)

end PyECLOUD
