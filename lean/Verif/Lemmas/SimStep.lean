import Verif.Spec.SimStep
import Verif.Spec.Regen
import Verif.Lemmas.Dynamics
import Verif.Props.Impact
import Verif.Props.Regen
import Verif.Props.Sources
import Verif.Props.CrossIon

/-!
# Lemmas about whole time steps
-/

set_option linter.unusedSectionVars false

namespace PyECLOUD

variable {K : Type} [Field K] [LinearOrder K] [IsStrictOrderedRing K] [FloorRing K]

theorem CloudOk.refpos {ch : Chamber K} {m : MPs K} (h : CloudOk ch m) : 0 < m.ref := lt_of_lt_of_le h.ref0 h.ref

theorem CloudOk.locked {ch : Chamber K} {m : MPs K} (h : CloudOk ch m) : m.Locked := ⟨h.split, h.clTh, h.ref⟩

theorem CloudOk.append {ch : Chamber K} {m m' : MPs K} (h : CloudOk ch m) (hw : m'.WF) (hc : m'.cap = m.cap)
    (hs : SameSizes m m') (new : List (Particle K)) (hl : m'.live = m.live ++ new)
    (hi : ∀ p ∈ new, ch.outside (p .x) (p .y) = false) (hn : ∀ p ∈ new, 0 ≤ p .nel) : CloudOk ch m' where
  wf := hw
  cap := by rw [hc]; exact h.cap
  inside := by
    intro p hp
    rw [hl] at hp
    rcases List.mem_append.1 hp with hp | hp
    · exact h.inside p hp
    · exact hi p hp
  nel := by
    intro p hp
    rw [hl] at hp
    rcases List.mem_append.1 hp with hp | hp
    · exact h.nel p hp
    · exact hn p hp
  ref0 := by rw [hs.ref0]; exact h.ref0
  ref := (hs.locked h.locked).ref
  split := (hs.locked h.locked).split
  clTh := (hs.locked h.locked).clTh

/-! ## sources -/

theorem gas_frame (outside : K → K → Bool) (unifFrac xAper yAper kIon v0 lam dt sx sy xb yb : K)
    (d : GasDraws K) (s s' : MPs K) (h : s.WF) (hroom : s.nmp < s.cap)
    (hok : gasGenerate outside unifFrac xAper yAper kIon v0 lam dt sx sy xb yb d s = .ok s') :
    s'.WF ∧ s'.cap = s.cap ∧ SameSizes s s' := by
  unfold gasGenerate at hok
  dsimp only at hok
  split at hok
  · split at hok
    · cases hok
    · next pts hp =>
      have hlen := rejectLoop_length _ _ _ _ _ hp
      have := addNew_wf s s' h _ _ _ rfl (by simpa using hlen) (fun _ => hroom) hok
      exact ⟨this.1, this.2, (addNew_sameSizes _ _ _ _ hok).1⟩
  · cases hok
    exact ⟨h, rfl, SameSizes.refl _⟩

theorem photo_frame (ch : Chamber K) (vel : ℕ → Hit K → K × K × K) (ends : ℕ → (K × K) × (K × K)) (kc : K)
    (mean : Option K) (lam dt u : K) (s s' : MPs K) (h : s.WF) (hroom : s.nmp < s.cap)
    (hok : photoGenerate ch vel ends kc mean lam dt u s = .ok s') :
    s'.WF ∧ s'.cap = s.cap ∧ SameSizes s s' := by
  unfold photoGenerate at hok
  dsimp only at hok
  split at hok
  · unfold photoSet at hok
    split at hok
    · cases hok
    · next hits hp =>
      have hmap := mapM_ok _ _ _ hp
      have := addNew_wf s s' h _ _ _ rfl (by simpa using hmap.length_eq.symm) (fun _ => hroom) hok
      exact ⟨this.1, this.2, (addNew_sameSizes _ _ _ _ hok).1⟩
  · cases hok
    exact ⟨h, rfl, SameSizes.refl _⟩

theorem photoSeg_frame (outside : K → K → Bool) (segs : List (PhSeg K)) (cdf : List K)
    (vel : ℕ → PhSeg K → K × K × K) (kc : K) (mean : Option K) (lam dt u : K) (seg r0 : ℕ → K)
    (rounds : List (ℕ → K)) (s s' : MPs K) (h : s.WF) (hroom : s.nmp < s.cap)
    (hok : photoSegGenerate outside segs cdf vel kc mean lam dt u seg r0 rounds s = .ok s') :
    s'.WF ∧ s'.cap = s.cap ∧ SameSizes s s' := by
  unfold photoSegGenerate at hok
  dsimp only at hok
  split at hok
  · split at hok
    · cases hok
    · split at hok
      · cases hok
      · next pts hp =>
        have := addNew_wf s s' h _ _ _ rfl (by simp) (fun _ => hroom) hok
        exact ⟨this.1, this.2, (addNew_sameSizes _ _ _ _ hok).1⟩
  · cases hok
    exact ⟨h, rfl, SameSizes.refl _⟩

theorem totalCharge_append (l l' : List (Particle K)) : totalCharge (l ++ l') = totalCharge l + totalCharge l' := by
  simp [totalCharge]

/-- charge of `n` macroparticles of one size -/
theorem charge_of_count (new : List (Particle K)) (r : K) (n : ℤ) (hn : (new.length : ℤ) = n)
    (hr : ∀ p ∈ new, p .nel = r) : totalCharge new = (n : K) * r := by
  rw [totalCharge_const _ r hr, ← hn]
  simp

/-! ## motion and impacts -/

theorem push_cap (s : MPs K) (h : s.WF) (step : ℕ → Phase K → Phase K) : (s.push step).cap = s.cap := by
  unfold MPs.push MPs.cap
  split
  · dsimp only
    rw [setPrefix_length _ _ (by simp; exact h.fits)]
  · rfl

theorem push_sameSizes (s : MPs K) (step : ℕ → Phase K → Phase K) : SameSizes s (s.push step) := by
  unfold MPs.push
  split <;> exact ⟨rfl, rfl, rfl, rfl, rfl, rfl, rfl⟩

theorem push_nel (s : MPs K) (step : ℕ → Phase K → Phase K) :
    (s.push step).live.map (fun p : Particle K => p .nel) = s.live.map (fun p => p .nel) := by
  rw [live_push]
  apply List.ext_getElem
  · simp
  · intro i h1 h2
    simp [Particle.move]

theorem impactStep_sizes (sq : K → K) (c : ImpCfg K) (ch : Chamber K)
    (sey : K → List (Impact K) → Except PyErr (SeyOut K)) (s : MPs K) (old : List (K × K × K)) (tt : K)
    (h : ImpHist K) (s' : MPs K) (h' : ImpHist K) (n : ImpCount K)
    (hok : impactStep sq c ch sey s old tt h = .ok (s', h', n)) : SameSizes s s' := by
  unfold impactStep at hok
  dsimp only at hok
  split at hok
  · split at hok
    · split at hok
      · cases hok
      · obtain ⟨hits, -, hok⟩ := bind_ok hok
        obtain ⟨h1, -, hok⟩ := bind_ok hok
        obtain ⟨out, -, hok⟩ := bind_ok hok
        obtain ⟨h2, -, hok⟩ := bind_ok hok
        obtain ⟨r, hr, hok⟩ := bind_ok hok
        cases hok
        unfold addEmitted at hr
        split at hr
        · obtain ⟨s2, hs2, hr⟩ := bind_ok hr
          obtain ⟨h3, -, hr⟩ := bind_ok hr
          cases hr
          exact SameSizes.trans (b := s.replaceHits (s.impactMask ch.outside) out.replace tt)
            ⟨rfl, rfl, rfl, rfl, rfl, rfl, rfl⟩ (addNew_sameSizes _ _ _ _ hs2).1
        · cases hr
          exact ⟨rfl, rfl, rfl, rfl, rfl, rfl, rfl⟩
    · cases hok; exact SameSizes.refl _
  · cases hok; exact SameSizes.refl _

theorem impactStep_nonneg (sq : K → K) (c : ImpCfg K) (ch : Chamber K)
    (sey : K → List (Impact K) → Except PyErr (SeyOut K)) (hsey : SeyGood sey) (s : MPs K) (hwf : s.WF)
    (hroom : s.nmp < s.cap) (hn : ∀ p ∈ s.live, 0 ≤ p .nel) (old : List (K × K × K)) (tt : K) (h : ImpHist K)
    (s' : MPs K) (h' : ImpHist K) (n : ImpCount K) (hok : impactStep sq c ch sey s old tt h = .ok (s', h', n)) :
    ∀ p ∈ s'.live, 0 ≤ p .nel := by
  have hl : ∀ imps out, sey s.split imps = .ok out → out.replace.length = imps.length :=
    fun imps out ho => (hsey _ imps out ho).1.replace.length_eq.symm
  rcases impactStep_cases sq c ch sey s hwf hroom old tt h s' h' n hl hok with ⟨he, rfl, rfl, rfl⟩ | ⟨hne, -, hits, imps, out, r⟩
  · exact hn
  · obtain ⟨hS, hq⟩ := hsey _ imps out r.sey
    have hrepl : (out.replace.map (Emit.particle s.lifetime tt)).length = countTrue (outMask s ch) := by
      rw [List.length_map, ← hS.replace.length_eq, r.len, countTrue_outMask]
    obtain ⟨q1, q2⟩ := hq (by
      intro i hi
      rw [r.imps] at hi
      obtain ⟨q, hq, rfl⟩ := List.mem_map.1 hi
      exact hn _ (List.mem_filter.1 (List.of_mem_zip hq).1).1)
    intro p hp
    rw [r.live] at hp
    rcases List.mem_append.1 hp with hp | hp
    · rcases maskPut_mem _ _ _ hrepl p hp with hp | ⟨k, h1, h2⟩
      · obtain ⟨e, he, rfl⟩ := List.mem_map.1 hp
        exact q1 e he
      · exact hn _ (List.mem_of_getElem? h1)
    · obtain ⟨e, he, rfl⟩ := List.mem_map.1 hp
      exact q2 e he

theorem positions_eq (s : MPs K) : s.positions = s.live.map (fun p : Particle K => (p .x, p .y, p .z)) := by
  unfold MPs.positions MPs.live
  rw [List.map_map]
  apply List.map_congr_left
  intro i _
  simp [MPs.tracked]

theorem track_ok (S : SimCfg K) (hS : S.Ok) (i : ℕ) (step : ℕ → Phase K → Phase K)
    (sey : K → List (Impact K) → Except PyErr (SeyOut K)) (hsey : SeyGood sey) (m m' : MPs K) (hm : CloudOk S.ch m)
    (hroom : m.nmp < m.cap) (tt : K) (h h' : ImpHist K) (n : ImpCount K)
    (hok : impactStep S.sq (S.imp i) S.ch sey (m.push step) m.positions tt h = .ok (m', h', n)) :
    CloudOk S.ch m' ∧ m'.cap = m.cap ∧ totalCharge m'.live = totalCharge m.live + (n.nelEmit - n.nelImp) := by
  have hw := push_WF m hm.wf step
  have hc := push_cap m hm.wf step
  have hr : (m.push step).nmp < (m.push step).cap := by rw [push_nmp, hc]; exact hroom
  have hse : ∀ imps out, sey (m.push step).split imps = .ok out → SeyOk imps out := fun imps out ho => (hsey _ _ _ ho).1
  have hz := (push_sameSizes m step).trans (impactStep_sizes _ _ _ _ _ _ _ _ _ _ _ hok)
  have h16 := C16_inside_untouched _ _ _ _ _ hw hr _ _ _ _ _ _ hse hok
  have hnl : ∀ p ∈ (m.push step).live, 0 ≤ p .nel := by
    intro p hp
    have : p .nel ∈ m.live.map (fun p : Particle K => p .nel) := by
      rw [← push_nel m step]
      exact List.mem_map_of_mem (f := fun p : Particle K => p .nel) hp
    obtain ⟨q, hq, e⟩ := List.mem_map.1 this
    rw [← e]
    exact hm.nel q hq
  refine ⟨⟨h16.2.2.2.1, ?_, ?_, ?_, ?_, (hz.locked hm.locked).ref, (hz.locked hm.locked).split, (hz.locked hm.locked).clTh⟩, ?_, ?_⟩
  · rw [h16.2.2.2.2, hc]; exact hm.cap
  · refine C17_all_inside _ _ _ _ _ hw hr _ _ _ _ _ _ hse ?_ hS.origin hS.hit hok
    intro o ho
    rw [positions_eq] at ho
    obtain ⟨p, hp, rfl⟩ := List.mem_map.1 ho
    exact hm.inside p hp
  · exact impactStep_nonneg _ _ _ _ hsey _ hw hr hnl _ _ _ _ _ _ hok
  · rw [hz.ref0]; exact hm.ref0
  · rw [h16.2.2.2.2, hc]
  · rw [(C18_charge_balance _ _ _ _ _ hw hr _ _ _ _ _ _ hse hok).1]
    unfold totalCharge
    rw [push_nel]
    ring

/-! ## maintenance -/

theorem clean_ok (ch : Chamber K) (m : MPs K) (h : CloudOk ch m) : CloudOk ch m.clean := by
  have hl := clean_locked m h.locked
  have hlive := clean_live m h.wf
  refine ⟨clean_wf m h.wf, by rw [clean_cap m h.wf]; exact h.cap, ?_, ?_, by rw [(clean_sameCfg m).ref0]; exact h.ref0,
    hl.ref, hl.split, hl.clTh⟩
  · intro p hp
    rw [hlive] at hp
    exact h.inside p (List.mem_filter.1 hp).1
  · intro p hp
    rw [hlive] at hp
    exact h.nel p (List.mem_filter.1 hp).1

theorem softRegen_ok (ch : Chamber K) (m : MPs K) (h : CloudOk ch m) (hz : m.ZeroTail) (t : ℕ) (r : ℕ → K) :
    CloudOk ch (m.softRegen t r) := by
  by_cases ht : t < m.nmp
  swap
  · unfold MPs.softRegen; rw [if_neg ht]; exact h
  have hl := softRegen_locked m h.locked t r
  have hlive := softRegen_live m h.wf t r ht
  have hsub : ∀ p ∈ maskSel m.live (softMask m t r), p ∈ m.live := fun p hp => (maskSel_sublist _ _).subset hp
  refine ⟨softRegen_wf m h.wf t r, by rw [softRegen_cap m h.wf]; exact h.cap, ?_, ?_,
    by rw [(softRegen_sameCfg m t r).ref0]; exact h.ref0, hl.ref, hl.split, hl.clTh⟩
  · intro p hp
    rw [hlive] at hp
    obtain ⟨q, hq, rfl⟩ := List.mem_map.1 hp
    have := h.inside q (hsub q hq)
    simpa [Particle.set] using this
  · intro p hp
    rw [hlive, ← charge_live_zeroTail m h.wf hz] at hp
    obtain ⟨q, hq, rfl⟩ := List.mem_map.1 hp
    simp only [Particle.set, Function.update_self]
    refine mul_nonneg (h.nel q (hsub q hq)) (div_nonneg ?_ ?_)
    · exact List.sum_nonneg (by simpa using fun p hp => h.nel p hp)
    · refine List.sum_nonneg ?_
      intro v hv
      obtain ⟨q, hq, rfl⟩ := List.mem_map.1 hv
      exact h.nel q (hsub q hq)

theorem regenSetup_of (S : SimCfg K) (hS : S.Ok) (i : ℕ) (m : MPs K) (h : CloudOk S.ch m) : RegenSetup (S.full i) m where
  wf := h.wf
  cap := h.cap
  dx := hS.dx i
  n := hS.n i
  sym := hS.sym i
  cut0 := hS.cut0 i
  cut1 := hS.cut1 i
  nx := hS.nx i
  ny := hS.ny i
  nvx := hS.nvx i
  nvy := hS.nvy i
  nvz := hS.nvz i
  ya := hS.ya i
  inX := fun p hp => hS.cover i _ _ (h.inside p hp)
  size := h.nel
  ref := h.ref0

theorem checkRegen_zeroTail (m m' : MPs K) (h : m.WF) (hc : 0 < m.cap) (hz : m.ZeroTail) (c : FullCfg K) (fuel : ℕ)
    (d : FullDraws K) (hok : m.checkRegen c fuel d = .ok m') : m'.ZeroTail := by
  by_cases ht : c.trigger m = true
  · obtain ⟨hist, iCut, -, -, e3⟩ := checkRegen_ok m m' c fuel d hok ht
    have hcx := cutX_wf (m.setRef (m.newRef c.nAfter)) (setRef_wf _ _ h) (xMaxOf c hist.length iCut)
    refine rebuild_zeroTail _ m' hcx.1 ?_ c _ d e3
    rw [hcx.2.1]
    exact hc
  · rw [checkRegen_not_trigger _ _ _ _ (by simpa using ht)] at hok
    cases hok
    exact hz

theorem full_ok (S : SimCfg K) (hS : S.Ok) (i : ℕ) (m m' : MPs K) (h : CloudOk S.ch m) (d : FullDraws K)
    (hu : ∀ k, (d.pass k).Unit) (hok : m.checkRegen (S.full i) (S.full i).histN d = .ok m') : CloudOk S.ch m' := by
  by_cases ht : (S.full i).trigger m = true
  · have hw := checkRegen_wf m m' h.wf h.cap _ _ d hok
    have hr := checkRegen_ref m m' _ _ d hok ht
    have hc := C11_full_regen_uniform (S.full i) m m' (regenSetup_of S hS i m h) ht _ (le_refl _) d hu hok
    have h0 : 0 < m'.ref0 := by rw [hr.2.2.ref0]; exact h.ref0
    refine ⟨hw.1, by rw [hw.2]; exact h.cap, ?_, ?_, h0, hr.2.1.ref, hr.2.1.split, hr.2.1.clTh⟩
    · intro p hp
      have := (hc p hp).2.1
      rwa [hS.out i] at this
    · intro p hp
      rw [(hc p hp).1]
      exact (lt_of_lt_of_le h0 hr.2.1.ref).le
  · rw [checkRegen_not_trigger _ _ _ _ (by simpa using ht)] at hok
    cases hok
    exact h

theorem full_cap (S : SimCfg K) (i : ℕ) (m m' : MPs K) (h : CloudOk S.ch m) (d : FullDraws K)
    (hok : m.checkRegen (S.full i) (S.full i).histN d = .ok m') : m'.cap = m.cap :=
  (checkRegen_wf m m' h.wf h.cap _ _ d hok).2

theorem checkSoft_ok (ch : Chamber K) (m : MPs K) (h : CloudOk ch m) (hz : m.ZeroTail) (cfg : RegenCfg) (r : ℕ → K) :
    CloudOk ch (m.checkSoft cfg r) ∧ (m.checkSoft cfg r).cap = m.cap :=
  checkSoft_cases m cfg r (fun s => CloudOk ch s ∧ s.cap = m.cap) ⟨h, rfl⟩
    (fun _ t _ _ => ⟨softRegen_ok ch m h hz t r, softRegen_cap m h.wf t r⟩)

theorem checkAsync_ok (ch : Chamber K) (m : MPs K) (h : CloudOk ch m) (cfg : RegenCfg) (r : ℕ → K) :
    CloudOk ch (m.checkAsync cfg r) ∧ (m.checkAsync cfg r).cap = m.cap :=
  checkAsync_cases m cfg r (fun s => CloudOk ch s ∧ s.cap = m.cap) ⟨h, rfl⟩ ⟨clean_ok ch m h, clean_cap m h.wf⟩
    (fun t => ⟨softRegen_ok ch _ (clean_ok ch m h) (clean_zeroTail m h.wf) t r,
      (softRegen_cap _ (clean_wf m h.wf) t r).trans (clean_cap m h.wf)⟩)

theorem maintenance_ok (S : SimCfg K) (hS : S.Ok) (i : ℕ) (m m' : MPs K) (h : CloudOk S.ch m)
    (newPass skipClean skipRegen : Bool) (hskip : skipClean = true → skipRegen = true) (d : FullDraws K)
    (hu : ∀ k, (d.pass k).Unit) (rs ra : ℕ → K)
    (hok : m.maintenance newPass skipClean skipRegen (S.full i) (S.regen i) (S.full i).histN d rs ra = .ok m') :
    CloudOk S.ch m' ∧ m'.cap = m.cap := by
  unfold MPs.maintenance at hok
  simp only at hok
  by_cases hb : (newPass && !skipRegen) = true
  · simp only [hb, if_true] at hok
    have hsc : skipClean = false := by
      cases hs : skipClean
      · rfl
      · rw [hskip hs] at hb; simp at hb
    have hnp : newPass = true := by
      cases newPass <;> simp_all
    have e1 : (newPass && !skipClean) = true := by rw [hsc, hnp]; rfl
    simp only [e1, if_true] at hok
    have hc := clean_ok S.ch m h
    cases hr : m.clean.checkRegen (S.full i) (S.full i).histN d with
    | error e => rw [hr] at hok; cases hok
    | ok s2 =>
      rw [hr] at hok
      have h2 := full_ok S hS i _ _ hc d hu hr
      have hz2 := checkRegen_zeroTail _ _ hc.wf hc.cap (clean_zeroTail m h.wf) _ _ d hr
      have h3 := checkSoft_ok S.ch s2 h2 hz2 (S.regen i) rs
      have h4 := checkAsync_ok S.ch _ h3.1 (S.regen i) ra
      cases hok
      exact ⟨h4.1, by rw [h4.2, h3.2, full_cap S i _ _ hc d hr, clean_cap m h.wf]⟩
  · have hb' : (newPass && !skipRegen) = false := by simpa using hb
    simp only [hb', Bool.false_eq_true, if_false] at hok
    by_cases hcl : (newPass && !skipClean) = true
    · simp only [hcl, if_true] at hok
      cases hok
      have h4 := checkAsync_ok S.ch _ (clean_ok S.ch m h) (S.regen i) ra
      exact ⟨h4.1, h4.2.trans (clean_cap m h.wf)⟩
    · have hcl' : (newPass && !skipClean) = false := by simpa using hcl
      simp only [hcl', Bool.false_eq_true, if_false] at hok
      cases hok
      exact checkAsync_ok S.ch m h (S.regen i) ra

theorem filter_not_sum (l : List (Particle K)) (th : K) :
    totalCharge (l.filter (fun p => decide (th ≤ p .nel))) =
      totalCharge l - totalCharge (l.filter (fun p => decide (p .nel < th))) := by
  unfold totalCharge
  induction l with
  | nil => simp
  | cons p l ih =>
    by_cases h : th ≤ p .nel
    · have h' : ¬ p .nel < th := not_lt.2 h
      simp only [List.filter_cons, h, h', decide_true, decide_false, if_true, Bool.false_eq_true, if_false,
        List.map_cons, List.sum_cons, ih]
      ring
    · have h' : p .nel < th := not_le.1 h
      simp only [List.filter_cons, h, h', decide_true, decide_false, if_true, Bool.false_eq_true, if_false,
        List.map_cons, List.sum_cons, ih]
      ring

theorem checkSoft_calm (m : MPs K) (cfg : RegenCfg) (r : ℕ → K) (h : ∀ thr t, cfg.soft = some (thr, t) → m.nmp ≤ thr) :
    m.checkSoft cfg r = m := by
  unfold MPs.checkSoft
  split
  · rfl
  · next thr t he => rw [if_neg (by have := h thr t he; omega)]

theorem checkAsync_calm (m : MPs K) (cfg : RegenCfg) (r : ℕ → K) (h : ∀ thr t, cfg.async = some (thr, t) → m.nmp ≤ thr) :
    m.checkAsync cfg r = m := by
  unfold MPs.checkAsync
  split
  · rfl
  · next thr t he => rw [if_neg (by have := h thr t he; omega)]

/-- without regeneration the maintenance is the cleaning of a new passage -/
theorem maintenance_calm (m : MPs K) (newPass skipClean skipRegen : Bool) (full : FullCfg K) (cfg : RegenCfg) (fuel : ℕ)
    (d : FullDraws K) (rs ra : ℕ → K)
    (ht : full.trigger (if newPass && !skipClean then m.clean else m) = false)
    (h1 : ∀ thr t, cfg.soft = some (thr, t) → (if newPass && !skipClean then m.clean else m).nmp ≤ thr)
    (h2 : ∀ thr t, cfg.async = some (thr, t) → (if newPass && !skipClean then m.clean else m).nmp ≤ thr) :
    m.maintenance newPass skipClean skipRegen full cfg fuel d rs ra =
      .ok (if newPass && !skipClean then m.clean else m) := by
  unfold MPs.maintenance
  dsimp only
  rw [checkRegen_not_trigger _ _ _ _ ht]
  by_cases hb : (newPass && !skipRegen) = true
  · rw [if_pos hb]
    dsimp only
    rw [checkSoft_calm _ _ _ h1, checkAsync_calm _ _ _ h2]
  · rw [if_neg hb]
    dsimp only
    rw [checkAsync_calm _ _ _ h2]

/-! ## operations on the state -/

/-- admissible operations -/
def OpOk (S : SimCfg K) : SimOp K → Prop
  | .track _ _ sey _ => SeyGood sey
  | .gas i lam dt _ _ _ _ d => 0 ≤ (S.gas i).kIon * lam * dt ∧ 0 ≤ d.u ∧ InUnit d.rvx ∧ InUnit d.rvy ∧ InUnit d.rvz
  | .rays i lam dt u _ ends => PhotoOk (S.photo i) lam dt ∧ 0 ≤ u ∧ RaysOk S.ch ends
  | .segs i lam dt u _ _ _ _ => PhotoOk (S.photo i) lam dt ∧ 0 ≤ u
  | .cross dt _ => 0 ≤ dt
  | .maintain _ _ skipClean skipRegen d _ _ => (skipClean = true → skipRegen = true) ∧ ∀ k, (d.pass k).Unit

theorem put_get (st : SimSt K) (i : ℕ) (m : MPs K) (j : ℕ) :
    (st.put i m).clouds[j]? = if i = j then (st.clouds[j]?).map (fun c => { c with mps := m }) else st.clouds[j]? := by
  unfold SimSt.put
  simp only [List.getElem?_modify]
  by_cases h : i = j
  · simp [h]
  · simp [h]

theorem onCloud_spec (st st' : SimSt K) (i : ℕ) (f : MPs K → Except PyErr (MPs K)) (hok : st.onCloud i f = .ok st') :
    ∃ c m, st.clouds[i]? = some c ∧ f c.mps = .ok m ∧ st' = st.put i m := by
  unfold SimSt.onCloud at hok
  split at hok
  · cases hok
  · next c hc =>
    split at hok
    · cases hok
    · next m hm =>
      cases hok
      exact ⟨c, m, hc, hm, rfl⟩

/-- what every operation does to the clouds -/
structure StepRel (ch : Chamber K) (st st' : SimSt K) : Prop where
  ok : ∀ c ∈ st'.clouds, CloudOk ch c.mps
  frame : st'.clouds.map (fun c => (c.name, c.mps.cap)) = st.clouds.map (fun c => (c.name, c.mps.cap))

theorem put_rel (ch : Chamber K) (st : SimSt K) (h : ∀ c ∈ st.clouds, CloudOk ch c.mps) (i : ℕ) (c : XCloud K)
    (hc : st.clouds[i]? = some c) (m : MPs K) (hm : CloudOk ch m) (hcap : m.cap = c.mps.cap) :
    StepRel ch st (st.put i m) := by
  constructor
  · intro c' hc'
    obtain ⟨j, hj⟩ := List.getElem?_of_mem hc'
    rw [put_get] at hj
    by_cases e : i = j
    · subst e
      rw [if_pos rfl, hc] at hj
      cases hj
      exact hm
    · rw [if_neg e] at hj
      exact h c' (List.mem_of_getElem? hj)
  · apply List.ext_getElem?
    intro j
    rw [List.getElem?_map, List.getElem?_map, put_get]
    by_cases e : i = j
    · subst e
      rw [if_pos rfl, hc]
      simp [hcap]
    · rw [if_neg e]

theorem put_charge (st : SimSt K) (i : ℕ) (c : XCloud K) (hc : st.clouds[i]? = some c) (m : MPs K) (j : ℕ) :
    (st.put i m).charge j = if i = j then totalCharge m.live else st.charge j := by
  unfold SimSt.charge
  rw [put_get]
  by_cases e : i = j
  · subst e
    rw [if_pos rfl, if_pos rfl, hc]
    rfl
  · rw [if_neg e, if_neg e]

/-- an operation that changes the charge of cloud `i` by `g` only -/
theorem put_gain (st : SimSt K) (i : ℕ) (c : XCloud K) (hc : st.clouds[i]? = some c) (m : MPs K) (g : K)
    (h : totalCharge m.live = totalCharge c.mps.live + g) (j : ℕ) :
    (st.put i m).charge j = st.charge j + if i = j then g else 0 := by
  rw [put_charge st i c hc]
  by_cases e : i = j
  · subst e
    rw [if_pos rfl, if_pos rfl, h]
    unfold SimSt.charge
    rw [hc]
  · rw [if_neg e, if_neg e, add_zero]

theorem apply_spec (S : SimCfg K) (hS : S.Ok) (op : SimOp K) (hop : OpOk S op) (st st' : SimSt K)
    (hinv : ∀ c ∈ st.clouds, CloudOk S.ch c.mps) (hnd : (st.clouds.map (fun c => c.name)).Nodup) (hroom : st.Room)
    (htgt : st.Targets S.lg) (hok : op.apply S st = .ok st') :
    StepRel S.ch st st' ∧ (op.Calm S st → ∀ j, st'.charge j = st.charge j + op.gain S j st st') := by
  cases op with
  | track i step sey tt =>
    simp only [SimOp.apply, SimSt.track] at hok
    split at hok
    · cases hok
    · next c hc =>
      split at hok
      · cases hok
      · next m h n hi =>
        cases hok
        have hmem := List.mem_of_getElem? hc
        obtain ⟨h1, h2, h3⟩ := track_ok S hS i step sey hop c.mps m (hinv c hmem) (hroom c hmem) tt _ _ n hi
        have hr := put_rel S.ch st hinv i c hc m h1 h2
        refine ⟨⟨hr.ok, hr.frame⟩, fun _ j => ?_⟩
        have := put_gain st i c hc m _ h3 j
        simp only [SimOp.gain]
        unfold SimSt.charge at this ⊢
        rw [this]
        by_cases e : i = j
        · subst e; simp
        · simp [e]
  | gas i lam dt sx sy xb yb d =>
    simp only [SimOp.apply] at hok
    obtain ⟨c, m, hc, hm, rfl⟩ := onCloud_spec _ _ _ _ hok
    have hmem := List.mem_of_getElem? hc
    have hco := hinv c hmem
    obtain ⟨h1, h2, h3⟩ := gas_frame _ _ _ _ _ _ _ _ _ _ _ _ _ _ _ hco.wf (hroom c hmem) hm
    obtain ⟨new, n1, n2, n3, -⟩ := C45_gas_ionisation _ _ _ _ _ _ _ _ _ _ _ _ _ _ _ hco.wf (hroom c hmem) hco.refpos
      hop.1 hop.2.1 hop.2.2 hm
    refine ⟨put_rel S.ch st hinv i c hc m (hco.append h1 h2 h3 new n1 (fun p hp => (n3 p hp).2.1)
      (fun p hp => by rw [(n3 p hp).1]; exact hco.refpos.le)) h2, fun _ j => ?_⟩
    rw [put_gain st i c hc m _ (by
      rw [n1, totalCharge_append, charge_of_count new c.mps.ref _ n2 (fun p hp => (n3 p hp).1)]) j]
    simp only [SimOp.gain]
    by_cases e : i = j
    · subst e; simp [SimSt.refSize, hc]
    · simp [e]
  | rays i lam dt u vel ends =>
    obtain ⟨hp, hu, hends⟩ := hop
    simp only [SimOp.apply] at hok
    split at hok
    · next kc mean hph =>
      obtain ⟨c, m, hc, hm, rfl⟩ := onCloud_spec _ _ _ _ hok
      have hmem := List.mem_of_getElem? hc
      have hco := hinv c hmem
      rw [hph] at hp
      obtain ⟨h1, h2, h3⟩ := photo_frame _ _ _ _ _ _ _ _ _ _ hco.wf (hroom c hmem) hm
      obtain ⟨new, n1, n2, n3, -⟩ := C45_photoemission _ _ _ _ _ _ _ _ _ _ hco.wf (hroom c hmem) hco.refpos
        hp hu (fun k q hq => hS.hit _ _ _ (hends k).1 (hends k).2 hq) hm
      have n3' : ∀ p ∈ new, p .nel = c.mps.ref ∧ S.ch.outside (p .x) (p .y) = false := by
        intro p hpm
        obtain ⟨k, hk⟩ := List.getElem?_of_mem hpm
        have := n3 k p hk
        exact ⟨this.1, this.2.2.2.1⟩
      refine ⟨put_rel S.ch st hinv i c hc m (hco.append h1 h2 h3 new n1 (fun p hp => (n3' p hp).2)
        (fun p hp => by rw [(n3' p hp).1]; exact hco.refpos.le)) h2, fun _ j => ?_⟩
      rw [put_gain st i c hc m _ (by
        rw [n1, totalCharge_append, charge_of_count new c.mps.ref _ n2 (fun p hp => (n3' p hp).1)]) j]
      simp only [SimOp.gain]
      by_cases e : i = j
      · subst e; simp [SimSt.refSize, hc, hph]
      · simp [e]
    · next hph =>
      cases hok
      refine ⟨⟨hinv, rfl⟩, fun _ j => ?_⟩
      simp only [SimOp.gain]
      by_cases e : i = j
      · subst e
        rw [if_pos rfl]
        cases hq : S.photo i with
        | off => simp
        | rays kc mean => exact absurd hq (hph kc mean)
        | segs kc mean l cdf => simp
      · simp [e]
  | segs i lam dt u vel seg r0 rounds =>
    obtain ⟨hp, hu⟩ := hop
    simp only [SimOp.apply] at hok
    split at hok
    · next kc mean l cdf hph =>
      obtain ⟨c, m, hc, hm, rfl⟩ := onCloud_spec _ _ _ _ hok
      have hmem := List.mem_of_getElem? hc
      have hco := hinv c hmem
      rw [hph] at hp
      obtain ⟨h1, h2, h3⟩ := photoSeg_frame _ _ _ _ _ _ _ _ _ _ _ _ _ _ hco.wf (hroom c hmem) hm
      obtain ⟨new, n1, n2, n3, -⟩ := C45_photoemission_per_segment _ _ _ _ _ _ _ _ _ _ _ _ _ _ hco.wf (hroom c hmem)
        hco.refpos hp hu hm
      refine ⟨put_rel S.ch st hinv i c hc m (hco.append h1 h2 h3 new n1 (fun p hp => (n3 p hp).2.2.2.1)
        (fun p hp => by rw [(n3 p hp).1]; exact hco.refpos.le)) h2, fun _ j => ?_⟩
      rw [put_gain st i c hc m _ (by
        rw [n1, totalCharge_append, charge_of_count new c.mps.ref _ n2 (fun p hp => (n3 p hp).1)]) j]
      simp only [SimOp.gain]
      by_cases e : i = j
      · subst e; simp [SimSt.refSize, hc, hph]
      · simp [e]
    · next hph =>
      cases hok
      refine ⟨⟨hinv, rfl⟩, fun _ j => ?_⟩
      simp only [SimOp.gain]
      by_cases e : i = j
      · subst e
        rw [if_pos rfl]
        cases hq : S.photo i with
        | off => simp
        | rays kc mean => simp
        | segs kc mean l cdf => exact absurd hq (hph kc mean l cdf)
      · simp [e]
  | cross dt d =>
    simp only [SimOp.apply] at hok
    split at hok
    · next hx =>
      cases hok
      exact ⟨⟨hinv, rfl⟩, fun _ j => by simp [SimOp.gain, hx]⟩
    · next x hx =>
      split at hok
      · cases hok
      · next x' cs hg =>
        cases hok
        have hsane : XSane S.sq S.lg dt st.clouds :=
          ⟨hS.sqrt, hop, fun c hc => (hinv c hc).wf, hroom, fun c hc => (hinv c hc).nel, fun c hc => (hinv c hc).refpos⟩
        obtain ⟨h1, -⟩ := C46_step x x' S.sq S.lg S.qe dt st.clouds cs d hsane (fun q hq pr hpr => htgt x hx q hq pr hpr) hnd hg
        have hlen := h1.length_eq
        have hall : ∀ (j : ℕ) (c c' : XCloud K), st.clouds[j]? = some c → cs[j]? = some c' →
            c'.name = c.name ∧ CloudOk S.ch c'.mps ∧ c'.mps.cap = c.mps.cap ∧
            totalCharge c'.mps.live = totalCharge c.mps.live + (x'.nelC c.name - x.nelC c.name) := by
          intro j c c' ha hb
          have := (List.forall₂_iff_get.1 h1).2 j (List.getElem?_eq_some_iff.1 ha).1 (List.getElem?_eq_some_iff.1 hb).1
          simp only [List.get_eq_getElem] at this
          rw [(List.getElem?_eq_some_iff.1 ha).2, (List.getElem?_eq_some_iff.1 hb).2] at this
          obtain ⟨a1, -, a3, a4, new, a5, a6, -, a8, -⟩ := this
          have hco := hinv c (List.mem_of_getElem? ha)
          refine ⟨a1, hco.append a3 a4.1 a4.2 new a5 ?_ (fun p hp => (a6 p hp).2.1), a4.1, ?_⟩
          · intro p hp
            obtain ⟨-, -, b, hb, q, hq, e1, e2, -⟩ := a6 p hp
            rw [e1, e2]
            exact (hinv b hb).inside q hq
          · rw [a5, totalCharge_append, a8]
            ring
        refine ⟨⟨?_, ?_⟩, fun _ j => ?_⟩
        · intro c' hc'
          obtain ⟨j, hj⟩ := List.getElem?_of_mem hc'
          have hj' : j < st.clouds.length := by rw [hlen]; exact (List.getElem?_eq_some_iff.1 hj).1
          exact (hall j _ c' (List.getElem?_eq_getElem hj') hj).2.1
        · apply List.ext_getElem
          · simp [hlen]
          · intro j g1 g2
            have g1' : j < cs.length := by simpa using g1
            have g2' : j < st.clouds.length := by simpa using g2
            have := hall j _ _ (List.getElem?_eq_getElem g2') (List.getElem?_eq_getElem g1')
            simp [this.1, this.2.2.1]
        · simp only [SimOp.gain, hx, SimSt.charge]
          by_cases hj : j < st.clouds.length
          · have hj' : j < cs.length := by rw [← hlen]; exact hj
            rw [List.getElem?_eq_getElem hj, List.getElem?_eq_getElem hj']
            exact (hall j _ _ (List.getElem?_eq_getElem hj) (List.getElem?_eq_getElem hj')).2.2.2
          · rw [List.getElem?_eq_none (by omega), List.getElem?_eq_none (by omega)]
            simp
  | maintain i newPass skipClean skipRegen d rs ra =>
    simp only [SimOp.apply] at hok
    obtain ⟨c, m, hc, hm, rfl⟩ := onCloud_spec _ _ _ _ hok
    have hmem := List.mem_of_getElem? hc
    have hco := hinv c hmem
    obtain ⟨h1, h2⟩ := maintenance_ok S hS i c.mps m hco newPass skipClean skipRegen hop.1 d hop.2 rs ra hm
    refine ⟨put_rel S.ch st hinv i c hc m h1 h2, fun hcalm j => ?_⟩
    obtain ⟨c1, c2, c3⟩ := hcalm c hc
    rw [maintenance_calm _ _ _ _ _ _ _ _ _ _ c1 c2 c3] at hm
    have hm' : m = if newPass && !skipClean then c.mps.clean else c.mps := (Except.ok.inj hm).symm
    rw [put_gain st i c hc m (if (newPass && !skipClean) = true then
        -totalCharge (c.mps.live.filter (fun p => decide (p .nel < c.mps.clTh))) else 0) (by
      rw [hm']
      split
      · rw [clean_live _ hco.wf, filter_not_sum]; ring
      · simp) j]
    simp only [SimOp.gain]
    by_cases e : i = j
    · subst e
      simp only [SimSt.small, hc]
      cases newPass <;> cases skipClean <;> simp
    · simp [e]

/-- the histograms of the impact managers -/
theorem apply_hists (S : SimCfg K) (op : SimOp K) (hop : OpOk S op) (st st' : SimSt K)
    (hinv : ∀ c ∈ st.clouds, CloudOk S.ch c.mps) (hroom : st.Room) (hok : op.apply S st = .ok st') (j : ℕ) :
    (st'.hists j).tot.sum = (st.hists j).tot.sum +
      (match op with | .track i _ _ _ => if i = j then (st'.cnt j).nelImp else 0 | _ => 0) ∧
    (st'.hists j).enLine.sum = (st.hists j).enLine.sum +
      (match op with | .track i _ _ _ => if i = j then (st'.cnt j).nelImp else 0 | _ => 0) ∧
    (st'.hists j).energ.sum = (st.hists j).energ.sum +
      (match op with | .track i _ _ _ => if i = j then (st'.cnt j).enImp - (st'.cnt j).enEmit else 0 | _ => 0) := by
  have hput : ∀ (i : ℕ) (f : MPs K → Except PyErr (MPs K)), st.onCloud i f = .ok st' → st'.hists = st.hists := by
    intro i f h
    obtain ⟨c, m, -, -, rfl⟩ := onCloud_spec _ _ _ _ h
    rfl
  cases op with
  | track i step sey tt =>
    simp only [SimOp.apply, SimSt.track] at hok
    split at hok
    · cases hok
    · next c hc =>
      split at hok
      · cases hok
      · next m h n hi =>
        cases hok
        have hmem := List.mem_of_getElem? hc
        by_cases e : i = j
        · subst e
          have hm := hinv c hmem
          obtain ⟨imps, -, -, h3, h4, h5, -⟩ := C19_histograms _ _ _ _ _ (push_WF c.mps hm.wf step)
            (by rw [push_nmp, push_cap c.mps hm.wf]; exact hroom c hmem) _ _ _ _ _ _ (fun imps out ho => (hop _ _ _ ho).1) hi
          simp only [Function.update_self, if_true]
          exact ⟨h3, h4, by rw [h5]; ring⟩
        · have e' : j ≠ i := fun h => e h.symm
          simp [e, Function.update_of_ne e']
  | gas i lam dt sx sy xb yb d => simp only [SimOp.apply] at hok; rw [hput _ _ hok]; simp
  | rays i lam dt u vel ends =>
    simp only [SimOp.apply] at hok
    split at hok
    · rw [hput _ _ hok]; simp
    · cases hok; simp
  | segs i lam dt u vel seg r0 rounds =>
    simp only [SimOp.apply] at hok
    split at hok
    · rw [hput _ _ hok]; simp
    · cases hok; simp
  | cross dt d =>
    simp only [SimOp.apply] at hok
    split at hok
    · cases hok; simp
    · split at hok
      · cases hok
      · cases hok; simp
  | maintain i newPass skipClean skipRegen d rs ra => simp only [SimOp.apply] at hok; rw [hput _ _ hok]; simp

/-! ## runs -/

theorem addLoop_length (prods : List ℕ) (acc : ℕ → NewMPs K) (cs : List (XCloud K)) (a b : ℕ → K)
    (r : List (XCloud K) × (ℕ → K) × (ℕ → K)) (h : addLoop prods acc cs a b = .ok r) : r.1.length = cs.length := by
  induction cs generalizing a b r with
  | nil => unfold addLoop at h; cases h; rfl
  | cons c cs ih =>
    unfold addLoop at h
    split at h
    · split at h
      · cases h
      · split at h
        · cases h
        · next cs2 q hl =>
          cases h
          have := ih _ _ _ hl
          simpa using this
    · split at h
      · cases h
      · next cs2 q hl =>
        cases h
        have := ih _ _ _ hl
        simpa using this

theorem apply_length (S : SimCfg K) (op : SimOp K) (st st' : SimSt K) (hok : op.apply S st = .ok st') :
    st'.clouds.length = st.clouds.length := by
  have hput : ∀ (i : ℕ) (f : MPs K → Except PyErr (MPs K)), st.onCloud i f = .ok st' →
      st'.clouds.length = st.clouds.length := by
    intro i f h
    obtain ⟨c, m, -, -, rfl⟩ := onCloud_spec _ _ _ _ h
    simp [SimSt.put]
  cases op with
  | track i step sey tt =>
    simp only [SimOp.apply, SimSt.track] at hok
    split at hok
    · cases hok
    · split at hok
      · cases hok
      · cases hok; simp [SimSt.put]
  | gas i lam dt sx sy xb yb d => simp only [SimOp.apply] at hok; exact hput _ _ hok
  | rays i lam dt u vel ends =>
    simp only [SimOp.apply] at hok
    split at hok
    · exact hput _ _ hok
    · cases hok; rfl
  | segs i lam dt u vel seg r0 rounds =>
    simp only [SimOp.apply] at hok
    split at hok
    · exact hput _ _ hok
    · cases hok; rfl
  | cross dt d =>
    simp only [SimOp.apply] at hok
    split at hok
    · cases hok; rfl
    · split at hok
      · cases hok
      · next x' cs hg =>
        cases hok
        unfold XState.generate at hg
        split at hg
        · cases hg
        · split at hg
          · cases hg
          · next cs2 n1 n2 ha =>
            cases hg
            exact addLoop_length _ _ _ _ _ _ ha
  | maintain i newPass skipClean skipRegen d rs ra => simp only [SimOp.apply] at hok; exact hput _ _ hok

theorem simRun_append (S : SimCfg K) (a b : List (SimOp K)) (st : SimSt K) :
    simRun S (a ++ b) st = (match simRun S a st with | .error e => .error e | .ok st' => simRun S b st') := by
  induction a generalizing st with
  | nil => rfl
  | cons op a ih =>
    simp only [List.cons_append, simRun]
    cases op.apply S st with
    | error e => rfl
    | ok st' => exact ih st'

theorem simRun_length (S : SimCfg K) (ops : List (SimOp K)) (st st' : SimSt K) (h : simRun S ops st = .ok st') :
    st'.clouds.length = st.clouds.length := by
  induction ops generalizing st with
  | nil => cases h; rfl
  | cons op ops ih =>
    simp only [simRun] at h
    split at h
    · cases h
    · next st1 h1 => rw [ih st1 h, apply_length S op st st1 h1]

/-- the loop over the time steps executes all their operations in order -/
theorem simulate_eq (S : SimCfg K) (steps : List (StepIn K)) (st : SimSt K) :
    simulate S steps st = simRun S (simOps S st.clouds.length steps) st := by
  induction steps generalizing st with
  | nil => rfl
  | cons inp l ih =>
    simp only [simulate, simOps, List.flatMap_cons, simTimeStep]
    rw [simRun_append]
    cases h : simRun S (inp.ops S st.clouds.length) st with
    | error e => rfl
    | ok st' =>
      dsimp only
      rw [ih st', simRun_length S _ st st' h]
      rfl

theorem ops_ok (S : SimCfg K) (inp : StepIn K) (h : inp.Ok S) (n : ℕ) : ∀ op ∈ inp.ops S n, OpOk S op := by
  intro op hop
  unfold StepIn.ops at hop
  rcases List.mem_append.1 hop with hop | hop
  · rcases List.mem_append.1 hop with hop | hop
    · obtain ⟨i, -, hop⟩ := List.mem_flatMap.1 hop
      rcases List.mem_cons.1 hop with rfl | hop
      · exact h.sey i
      · unfold StepIn.primaryOps at hop
        rcases List.mem_append.1 hop with hop | hop
        · split at hop
          · obtain ⟨k, hk⟩ := List.getElem?_of_mem hop
            rw [List.getElem?_mapIdx] at hk
            obtain ⟨b, hb, rfl⟩ := Option.map_eq_some_iff.1 hk
            exact ⟨h.gas i b (List.mem_of_getElem? hb), h.gasD i k⟩
          · cases hop
        · dsimp only at hop
          have hp := h.photo i
          split at hop
          · cases hop
          · next kc mean hph =>
            rw [List.mem_singleton] at hop
            subst hop
            exact ⟨hp, h.phU i, h.phEnds i⟩
          · next kc mean l cdf hph =>
            rw [List.mem_singleton] at hop
            subst hop
            exact ⟨hp, h.phU i⟩
    · rw [List.mem_singleton] at hop
      subst hop
      exact h.dt
  · obtain ⟨i, -, rfl⟩ := List.mem_map.1 hop
    exact ⟨h.skip, h.fullD i⟩

theorem StepRel.names {ch : Chamber K} {st st' : SimSt K} (h : StepRel ch st st') :
    st'.clouds.map (fun c => c.name) = st.clouds.map (fun c => c.name) := by
  have := congrArg (List.map Prod.fst) h.frame
  simpa [List.map_map, Function.comp_def] using this

theorem RunHealthy.tail {S : SimCfg K} {op : SimOp K} {ops : List (SimOp K)} {st st1 : SimSt K}
    (h : RunHealthy S (op :: ops) st) (h1 : op.apply S st = .ok st1) : RunHealthy S ops st1 := by
  intro pre hp st2 h2
  refine h (op :: pre) (List.cons_prefix_cons.2 ⟨rfl, hp⟩) st2 ?_
  simp only [simRun, h1]
  exact h2

theorem RunCalm.tail {S : SimCfg K} {op : SimOp K} {ops : List (SimOp K)} {st st1 : SimSt K}
    (h : RunCalm S (op :: ops) st) (h1 : op.apply S st = .ok st1) : RunCalm S ops st1 := by
  intro pre o post he st2 h2
  refine h (op :: pre) o post (by rw [he]; rfl) st2 ?_
  simp only [simRun, h1]
  exact h2

theorem run_spec (S : SimCfg K) (hS : S.Ok) (ops : List (SimOp K)) (hops : ∀ op ∈ ops, OpOk S op) (st st' : SimSt K)
    (hinv : ∀ c ∈ st.clouds, CloudOk S.ch c.mps) (hnd : (st.clouds.map (fun c => c.name)).Nodup)
    (hh : RunHealthy S ops st) (hok : simRun S ops st = .ok st') :
    StepRel S.ch st st' ∧ (RunCalm S ops st → ∀ j, st'.charge j = st.charge j + simGains S j ops st) ∧
    ∀ j, (st'.hists j).tot.sum = (st.hists j).tot.sum + simWall S j (fun n => n.nelImp) ops st ∧
      (st'.hists j).enLine.sum = (st.hists j).enLine.sum + simWall S j (fun n => n.nelImp) ops st ∧
      (st'.hists j).energ.sum = (st.hists j).energ.sum + simWall S j (fun n => n.enImp - n.enEmit) ops st := by
  induction ops generalizing st with
  | nil =>
    cases hok
    exact ⟨⟨hinv, rfl⟩, fun _ j => by simp [simGains], fun j => by simp [simWall]⟩
  | cons op ops ih =>
    simp only [simRun] at hok
    cases h1 : op.apply S st with
    | error e => rw [h1] at hok; cases hok
    | ok st1 =>
      rw [h1] at hok
      have hr := hh [] (List.nil_prefix) st rfl
      obtain ⟨r1, r2⟩ := apply_spec S hS op (hops op List.mem_cons_self) st st1 hinv hnd hr.1 hr.2 h1
      have r3 := apply_hists S op (hops op List.mem_cons_self) st st1 hinv hr.1 h1
      obtain ⟨i1, i2, i3⟩ := ih (fun o ho => hops o (List.mem_cons_of_mem _ ho)) st1 r1.ok (by rw [r1.names]; exact hnd)
        (hh.tail h1) hok
      refine ⟨⟨i1.ok, i1.frame.trans r1.frame⟩, fun hc j => ?_, fun j => ?_⟩
      · rw [i2 (hc.tail h1) j, r2 (hc [] op ops rfl st rfl) j]
        simp only [simGains, h1]
        ring
      · obtain ⟨a1, a2, a3⟩ := i3 j
        obtain ⟨b1, b2, b3⟩ := r3 j
        rw [a1, a2, a3, b1, b2, b3]
        simp only [simWall, h1]
        cases op <;> simp [add_assoc]

end PyECLOUD
