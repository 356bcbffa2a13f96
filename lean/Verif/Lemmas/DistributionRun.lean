import Verif.Lemmas.Distribution
import Verif.Lemmas.MirrorSim
import Verif.Lemmas.Sources
import Verif.Props.Reload

/-! # Lemmas for C158: two runs with the same charge distribution -/

set_option linter.unusedSectionVars false

namespace PyECLOUD

variable {K : Type} [Field K] [LinearOrder K] [IsStrictOrderedRing K] [FloorRing K]

/-! ## impacts -/

theorem impact_same (sq : K → K) (c : ImpCfg K) (ch : Chamber K) (resp : (Phase K → ℤ → K) → Impact K → K) (yld : Impact K → K)
    (M : Phase K → Phase K) (tt : K) (h : ImpHist K) (s1 s1' s2 s2' : MPs K) (h1 h2 : ImpHist K) (n1 n2 : ImpCount K)
    (r1 r2 : List (K × Impact K)) (e1 e2 : List (Emit K)) (H1 : ImpChar sq c ch resp yld M tt h s1 s1' h1 n1 r1 e1)
    (H2 : ImpChar sq c ch resp yld M tt h s2 s2' h2 n2 r2 e2) (hc : SameCharge s1.live s2.live) (hl : s1.lifetime = s2.lifetime) :
    SameCharge s1'.live s2'.live ∧ h1 = h2 ∧ n1 = n2 := by
  have hr : SameHits r1 r2 := by
    intro F
    rw [H1.rows F, H2.rows F]
    exact hc _
  have he : ∀ q : Phase K → ℤ → K, (e1.map (fun e => e.nel * q e.phase e.seg)).sum = (e2.map (fun e => e.nel * q e.phase e.seg)).sum := by
    intro q
    rw [H1.emit q, H2.emit q]
    exact hr (fun _ i => resp q i)
  refine ⟨?_, ?_, ?_⟩
  · intro q
    rw [H1.live q, H2.live q, hc, hl, he (fun p _ => q p (if s2.lifetime then tt else -1))]
  · obtain ⟨a, ha, ha'⟩ := H1.hists
    obtain ⟨b, hb, hb'⟩ := H2.hists
    rw [hl] at ha
    have := impactHists_same _ _ _ _ _ hr _ _ _ ha hb
    subst this
    exact emitHists_same _ _ _ _ _ _ _ ha' hb' he
  · have a1 : n1.nelImp = n2.nelImp := by
      rw [H1.nelImp, H2.nelImp]
      simpa using hr (fun _ _ => 1)
    have a2 : n1.nelEmit = n2.nelEmit := by
      rw [H1.nelEmit, H2.nelEmit]
      exact hr (fun _ i => yld i)
    have a3 : n1.enImp = n2.enImp := by
      rw [H1.enImp, H2.enImp]
      exact hr (fun _ i => i.en)
    have a4 : n1.enEmit = n2.enEmit := by
      rw [H1.enEmit, H2.enEmit]
      exact he (fun p _ => c.ke * sq (p.vx ^ 2 + p.vy ^ 2 + p.vz ^ 2) * sq (p.vx ^ 2 + p.vy ^ 2 + p.vz ^ 2))
    cases n1
    cases n2
    simp_all

/-! ## sources -/

/-- an operation that appends macroparticles chosen from the reference size and the kind of histories only -/
structure IsSource (F : MPs K → Except PyErr (MPs K)) : Prop where
  frame : ∀ s s', F s = .ok s' → (∀ f, (s'.arr f).length = (s.arr f).length) ∧ s.nmp ≤ s'.nmp ∧ SameSizes s s'
  pair : ∀ s1 s2 s1' s2', F s1 = .ok s1' → F s2 = .ok s2' → s1.WF → s2.WF → s1'.WF → s2'.WF → s1.ref = s2.ref →
    s1.lifetime = s2.lifetime → ∃ L, s1'.live = s1.live ++ L ∧ s2'.live = s2.live ++ L

theorem isSource_id : IsSource (fun s : MPs K => .ok s) := by
  refine ⟨?_, ?_⟩
  · intro s s' h
    cases h
    exact ⟨fun _ => rfl, le_refl _, SameSizes.refl _⟩
  · intro s1 s2 s1' s2' h1 h2 _ _ _ _ _ _
    cases h1
    cases h2
    exact ⟨[], by simp, by simp⟩

theorem wf_back {s s' : MPs K} (hs : s.WF) (hf : (∀ f, (s'.arr f).length = (s.arr f).length) ∧ s.nmp ≤ s'.nmp ∧ SameSizes s s')
    (h : s'.nmp ≤ s'.cap) : s'.WF := by
  refine ⟨fun f => ?_, h⟩
  unfold MPs.cap
  rw [hf.1, hf.1]
  exact hs.len f

theorem isSource_comp (F G : MPs K → Except PyErr (MPs K)) (hF : IsSource F) (hG : IsSource G) :
    IsSource (fun s => match F s with | .error e => .error e | .ok m => G m) := by
  refine ⟨?_, ?_⟩
  · intro s s' h
    cases hf : F s with
    | error e => simp [hf] at h
    | ok m =>
      simp only [hf] at h
      obtain ⟨a1, a2, a3⟩ := hF.frame _ _ hf
      obtain ⟨b1, b2, b3⟩ := hG.frame _ _ h
      exact ⟨fun f => (b1 f).trans (a1 f), a2.trans b2, a3.trans b3⟩
  · intro s1 s2 s1' s2' h1 h2 w1 w2 w1' w2' hr hl
    cases f1 : F s1 with
    | error e => simp [f1] at h1
    | ok m1 =>
      cases f2 : F s2 with
      | error e => simp [f2] at h2
      | ok m2 =>
        simp only [f1] at h1
        simp only [f2] at h2
        have mid : ∀ s m s' : MPs K, F s = .ok m → G m = .ok s' → s.WF → s'.WF → m.WF := by
          intro s m s' hf hg w w'
          have a := hF.frame _ _ hf
          have b := hG.frame _ _ hg
          apply wf_back w a
          have hb := w'.fits
          have : s'.cap = m.cap := b.1 .x
          omega
        have v1 := mid _ _ _ f1 h1 w1 w1'
        have v2 := mid _ _ _ f2 h2 w2 w2'
        obtain ⟨L, l1, l2⟩ := hF.pair _ _ _ _ f1 f2 w1 w2 v1 v2 hr hl
        have a1 := (hF.frame _ _ f1).2.2
        have a2 := (hF.frame _ _ f2).2.2
        obtain ⟨L', k1, k2⟩ := hG.pair _ _ _ _ h1 h2 v1 v2 w1' w2' (by rw [a1.ref, a2.ref, hr]) (by rw [a1.lifetime, a2.lifetime, hl])
        exact ⟨L ++ L', by rw [k1, l1, List.append_assoc], by rw [k2, l2, List.append_assoc]⟩

theorem addNew_source_frame (s s' : MPs K) (n : ℕ) (src : Fld → Src K) (h : s.addNew n src = .ok s') :
    (∀ f, (s'.arr f).length = (s.arr f).length) ∧ s.nmp ≤ s'.nmp ∧ SameSizes s s' := by
  have hs := addNew_sameSizes s s' n src h
  refine ⟨?_, by omega, hs.1⟩
  unfold MPs.addNew at h
  split at h
  · cases h
  · next arr e =>
    cases h
    exact assignAll_len _ _ _ _ _ _ e

theorem addNew_pair (n : ℕ) (src : Fld → Src K) (l : List K) (hx : src .x = .array l) (hl : l.length = n) (hfit : ∀ f, (src f).Fits n)
    (s1 s2 s1' s2' : MPs K) (h1 : s1.addNew n src = .ok s1') (h2 : s2.addNew n src = .ok s2') (w1 : s1.WF) (w2 : s2.WF) (w1' : s1'.WF)
    (w2' : s2'.WF) (hlife : s1.lifetime = s2.lifetime) : ∃ L, s1'.live = s1.live ++ L ∧ s2'.live = s2.live ++ L := by
  have room : ∀ s s' : MPs K, s.addNew n src = .ok s' → s'.WF → n = 1 → s.nmp < s.cap := by
    intro s s' h w hn
    have hf := w.fits
    have hc : s'.cap = s.cap := (addNew_source_frame _ _ _ _ h).1 .x
    have := (addNew_sameSizes s s' n src h).2
    omega
  have a1 := (addNew_live s1 s1' w1 n src l hx hl (room _ _ h1 w1') (fun f _ => hfit f) h1).1
  have a2 := (addNew_live s2 s2' w2 n src l hx hl (room _ _ h2 w2') (fun f _ => hfit f) h2).1
  refine ⟨srcParticles s1.tracked n src, a1, ?_⟩
  rw [a2]
  have : s1.tracked = s2.tracked := by
    funext f
    unfold MPs.tracked
    rw [hlife]
  rw [this]

theorem gas_source (outside : K → K → Bool) (unifFrac xAper yAper kIon v0 lam dt sx sy xb yb : K) (d : GasDraws K) :
    IsSource (fun s => gasGenerate outside unifFrac xAper yAper kIon v0 lam dt sx sy xb yb d s) := by
  refine ⟨?_, ?_⟩
  · intro s s' h
    unfold gasGenerate at h
    dsimp only at h
    split at h
    · split at h
      · cases h
      · exact addNew_source_frame _ _ _ _ h
    · cases h
      exact ⟨fun _ => rfl, le_refl _, SameSizes.refl _⟩
  · intro s1 s2 s1' s2' h1 h2 w1 w2 w1' w2' hr hl
    have hsrc : ∀ pts, gasSrc s1 v0 d pts = gasSrc s2 v0 d pts := by
      intro pts
      funext f
      cases f <;> simp [gasSrc, hr]
    unfold gasGenerate at h1 h2
    dsimp only at h1 h2
    rw [hr] at h1
    split at h1
    · next hn =>
      rw [if_pos hn] at h2
      cases hj : rejectLoop outside (gasGen xAper yAper sx sy xb yb) d.rounds
        ((List.range (stochRound (kIon * lam * dt / s2.ref) d.u).toNat).map (fun i =>
          (decide (d.kind i < unifFrac), gasGen xAper yAper sx sy xb yb (decide (d.kind i < unifFrac)) (d.x0 i) (d.y0 i)))) with
      | error e =>
        rw [hj] at h1
        cases h1
      | ok pts =>
        rw [hj] at h1 h2
        simp only [hsrc] at h1 h2
        have hlen := rejectLoop_length _ _ _ _ _ hj
        have hlen : pts.length = (stochRound (kIon * lam * dt / s2.ref) d.u).toNat := by simpa using hlen
        refine addNew_pair _ _ _ rfl (by simpa using hlen) ?_ s1 s2 s1' s2' h1 h2 w1 w2 w1' w2' hl
        intro f
        cases f <;> simp [gasSrc, Src.Fits, hlen]
    · next hn =>
      rw [if_neg hn] at h2
      cases h1
      cases h2
      exact ⟨[], by simp, by simp⟩

theorem photo_source (ch : Chamber K) (vel : ℕ → Hit K → K × K × K) (ends : ℕ → (K × K) × (K × K)) (kc : K) (mean : Option K) (lam dt u : K) :
    IsSource (fun s => photoGenerate ch vel ends kc mean lam dt u s) := by
  refine ⟨?_, ?_⟩
  · intro s s' h
    unfold photoGenerate at h
    dsimp only at h
    split at h
    · unfold photoSet at h
      split at h
      · cases h
      · exact addNew_source_frame _ _ _ _ h
    · cases h
      exact ⟨fun _ => rfl, le_refl _, SameSizes.refl _⟩
  · intro s1 s2 s1' s2' h1 h2 w1 w2 w1' w2' hr hl
    unfold photoGenerate at h1 h2
    dsimp only at h1 h2
    rw [hr] at h1
    split at h1
    · next hn =>
      rw [if_pos hn] at h2
      unfold photoSet at h1 h2
      cases hj : ((List.range (photoCount kc mean lam dt s2.ref u).toNat).map ends).mapM
          (fun q => ch.hit (q.1.1, q.1.2, 0) (q.2.1, q.2.2, 0)) with
      | error e =>
        rw [hj] at h1
        cases h1
      | ok hits =>
        rw [hj] at h1 h2
        simp only [hr] at h1 h2
        have hlen := (mapM_ok _ _ _ hj).length_eq.symm
        refine addNew_pair _ _ _ rfl (by simpa using hlen) ?_ s1 s2 s1' s2' h1 h2 w1 w2 w1' w2' hl
        intro f
        cases f <;> simp_all [photoSrc, Src.Fits]
    · next hn =>
      rw [if_neg hn] at h2
      cases h1
      cases h2
      exact ⟨[], by simp, by simp⟩

theorem photoSeg_source (outside : K → K → Bool) (segs : List (PhSeg K)) (cdf : List K) (vel : ℕ → PhSeg K → K × K × K) (kc : K)
    (mean : Option K) (lam dt u : K) (seg r0 : ℕ → K) (rounds : List (ℕ → K)) :
    IsSource (fun s => photoSegGenerate outside segs cdf vel kc mean lam dt u seg r0 rounds s) := by
  refine ⟨?_, ?_⟩
  · intro s s' h
    rw [photoSegGenerate_eq] at h
    split at h
    · split at h
      · cases h
      · split at h
        · cases h
        · exact addNew_source_frame _ _ _ _ h
    · cases h
      exact ⟨fun _ => rfl, le_refl _, SameSizes.refl _⟩
  · intro s1 s2 s1' s2' h1 h2 w1 w2 w1' w2' hr hl
    simp only [photoSegGenerate_eq] at h1 h2
    rw [hr] at h1
    split at h1
    · next hn =>
      rw [if_pos hn] at h2
      cases hj : (((List.range (photoCount kc mean lam dt s2.ref u).toNat).map (fun i => cdfBin cdf (seg i))).insertionSort (· ≤ ·)).mapM
          (segGet segs) with
      | error e =>
        rw [hj] at h1
        cases h1
      | ok gs =>
        rw [hj] at h1 h2
        simp only at h1 h2
        cases hp : phPoints outside (fun i => gs.getD i ⟨0, 0, 0, 0, 0, 0⟩) (photoCount kc mean lam dt s2.ref u).toNat r0 rounds with
        | error e =>
          rw [hp] at h1
          cases h1
        | ok pts =>
          rw [hp] at h1 h2
          refine addNew_pair _ _ _ rfl (by simp) ?_ s1 s2 s1' s2' h1 h2 w1 w2 w1' w2' hl
          intro f
          cases f <;> simp [photoSrc, Src.Fits]
    · next hn =>
      rw [if_neg hn] at h2
      cases h1
      cases h2
      exact ⟨[], by simp, by simp⟩

/-! ## the operations of a turn -/

variable {G : Type} [AddCommGroup G]

theorem put_put (st : SimSt K) (i : ℕ) (m m' : MPs K) : (st.put i m).put i m' = st.put i m' := by
  unfold SimSt.put
  simp only
  congr 1
  apply List.ext_getElem?
  intro j
  simp only [List.getElem?_modify]
  by_cases h : i = j
  · subst h
    simp only [if_true]
    cases st.clouds[i]? <;> rfl
  · simp only [if_neg h]
    cases st.clouds[j]? <;> rfl

/-- operations that are one source acting on cloud `i` -/
def SrcOps (S : SimCfg K) (i : ℕ) (ops : List (SimOp K)) : Prop :=
  ∃ F, IsSource F ∧ ∀ (st : SimSt K) (c : XCloud K), st.clouds[i]? = some c → simRun S ops st = st.onCloud i F

theorem srcOps_nil (S : SimCfg K) (i : ℕ) : SrcOps S i [] := by
  refine ⟨_, isSource_id, ?_⟩
  intro st c hc
  unfold simRun SimSt.onCloud
  rw [hc]
  simp only
  rw [put_self st i c hc]

theorem srcOps_cons (S : SimCfg K) (i : ℕ) (op : SimOp K) (ops : List (SimOp K)) (F : MPs K → Except PyErr (MPs K)) (hF : IsSource F)
    (h : ∀ st : SimSt K, op.apply S st = st.onCloud i F) (ht : SrcOps S i ops) : SrcOps S i (op :: ops) := by
  obtain ⟨G, hG, hg⟩ := ht
  refine ⟨_, isSource_comp F G hF hG, ?_⟩
  intro st c hc
  unfold simRun
  rw [h]
  unfold SimSt.onCloud
  rw [hc]
  simp only
  cases hm : F c.mps with
  | error e => rfl
  | ok m =>
    simp only
    have hget : (st.put i m).clouds[i]? = some { c with mps := m } := by
      rw [put_get, if_pos rfl, hc]
      rfl
    rw [hg (st.put i m) _ hget]
    unfold SimSt.onCloud
    rw [hget]
    simp only
    cases G m with
    | error e => rfl
    | ok m' => simp only [put_put]

theorem primary_src (S : SimCfg K) (inp : StepIn K) (i : ℕ) : SrcOps S i (inp.primaryOps S i) := by
  have hph : SrcOps S i (match S.photo i with
     | .off => []
     | .rays _ _ => [SimOp.rays i (inp.main.lam + (inp.secs.map (fun b => b.lam)).sum) inp.dt (inp.phU i) (inp.phVel i) (inp.phEnds i)]
     | .segs _ _ _ _ => [SimOp.segs i (inp.main.lam + (inp.secs.map (fun b => b.lam)).sum) inp.dt (inp.phU i) (inp.sgVel i) (inp.sgSeg i) (inp.sgR0 i)
        (inp.sgRounds i)]) := by
    cases hp : S.photo i with
    | off => exact srcOps_nil S i
    | rays kc mean =>
      refine srcOps_cons S i _ _ _ (photo_source S.ch (inp.phVel i) (inp.phEnds i) kc mean (inp.main.lam + (inp.secs.map (fun b => b.lam)).sum) inp.dt (inp.phU i)) ?_ (srcOps_nil S i)
      intro st
      simp only [SimOp.apply, hp]
    | segs kc mean l cdf =>
      refine srcOps_cons S i _ _ _ (photoSeg_source S.ch.outside l cdf (inp.sgVel i) kc mean (inp.main.lam + (inp.secs.map (fun b => b.lam)).sum) inp.dt (inp.phU i) (inp.sgSeg i) (inp.sgR0 i)
        (inp.sgRounds i)) ?_ (srcOps_nil S i)
      intro st
      simp only [SimOp.apply, hp]
  unfold StepIn.primaryOps
  split
  · generalize hB : inp.main :: inp.secs = B
    clear hB
    have : ∀ (g : ℕ → GasDraws K), SrcOps S i (B.mapIdx (fun k b => SimOp.gas i b.lam b.dt b.sx b.sy b.xb b.yb (g k)) ++ match S.photo i with
     | .off => []
     | .rays _ _ => [SimOp.rays i (inp.main.lam + (inp.secs.map (fun b => b.lam)).sum) inp.dt (inp.phU i) (inp.phVel i) (inp.phEnds i)]
     | .segs _ _ _ _ => [SimOp.segs i (inp.main.lam + (inp.secs.map (fun b => b.lam)).sum) inp.dt (inp.phU i) (inp.sgVel i) (inp.sgSeg i) (inp.sgR0 i)
        (inp.sgRounds i)]) := by
      induction B with
      | nil => intro g; exact hph
      | cons b B ih =>
        intro g
        rw [List.mapIdx_cons, List.cons_append]
        refine srcOps_cons S i _ _ _ (gas_source S.ch.outside (S.gas i).unifFrac (S.gas i).xAper (S.gas i).yAper (S.gas i).kIon
          (S.gas i).v0 b.lam b.dt b.sx b.sy b.xb b.yb (g 0)) (fun st => rfl) (ih (fun k => g (k + 1)))
    exact this (inp.gasD i)
  · exact hph

theorem TrackerObj.Local.pushes {tr : TrackerObj K} (h : tr.Local) : tr.Pushes := by
  refine ⟨?_, ?_⟩
  · intro s f s' hs
    obtain ⟨g, hg⟩ := h.step
    exact ⟨_, hg s f s' hs⟩
  · intro s f d n s' hs
    obtain ⟨g, hg⟩ := h.custom d n
    exact ⟨_, hg s f s' hs⟩

/-! ## one turn -/

/-- what the turn of cloud `i` does to a state -/
def TurnTo (i : ℕ) (st st' : SimSt K) (c : XCloud K) (m : MPs K) (h : ImpHist K) (n : ImpCount K) : Prop :=
  st.clouds[i]? = some c ∧ st' = { st.put i m with hists := Function.update st.hists i h, cnt := Function.update st.cnt i n }

theorem turn_charge (C : CplCfg K G) (inp : CplIn K) (f : K → K → K × K) (i : ℕ) (ht : (C.tr i).Local) (hsey : SeyByImpact (inp.step.sey i))
    (st1 st2 st1' st2' : SimSt K) (c1 c2 : XCloud K) (g1 : st1.clouds[i]? = some c1) (g2 : st2.clouds[i]? = some c2)
    (hc : SameCloud c1 c2) (r1 : c1.mps.nmp < c1.mps.cap) (r2 : c2.mps.nmp < c2.mps.cap) (hh : st1.hists i = st2.hists i)
    (h1 : cplTurn C inp f i st1 = .ok st1') (h2 : cplTurn C inp f i st2 = .ok st2')
    (f1 : ∀ c, st1'.clouds[i]? = some c → c.mps.nmp ≤ c.mps.cap) (f2 : ∀ c, st2'.clouds[i]? = some c → c.mps.nmp ≤ c.mps.cap) :
    ∃ m1 m2 h n, TurnTo i st1 st1' c1 m1 h n ∧ TurnTo i st2 st2' c2 m2 h n ∧ SameCloud { c1 with mps := m1 } { c2 with mps := m2 } := by
  rw [C145_turn C inp f i st1 c1 g1 hc.wf ht.pushes] at h1
  rw [C145_turn C inp f i st2 c2 g2 hc.wf' ht.pushes] at h2
  obtain ⟨M, hM⟩ := cplMotion_local C inp f i ht
  obtain ⟨resp, yld, hs⟩ := hsey c1.mps.split
  obtain ⟨F, hF, hrun⟩ := primary_src C.S inp.step i
  have one : ∀ (st st' : SimSt K) (c : XCloud K), st.clouds[i]? = some c → c.mps.WF → c.mps.nmp < c.mps.cap → c.mps.split = c1.mps.split →
      (match cplMotion C inp f i c.mps with
      | .error e => .error e
      | .ok m =>
        match impactStep C.S.sq (C.S.imp i) C.S.ch (inp.step.sey i) m c.mps.positions inp.step.tt (st.hists i) with
        | .error e => .error e
        | .ok (m', h, n) => simRun C.S (inp.step.primaryOps C.S i)
            { st.put i m' with hists := Function.update st.hists i h, cnt := Function.update st.cnt i n }) = Except.ok st' →
      ∃ m m' h n rs es, ImpChar C.S.sq (C.S.imp i) C.S.ch resp yld M inp.step.tt (st.hists i) c.mps m h n rs es ∧ F m = .ok m' ∧
        TurnTo i st st' c m' h n := by
    intro st st' c hg hw hr hsp hok
    cases hm : cplMotion C inp f i c.mps with
    | error e =>
      rw [hm] at hok
      cases hok
    | ok m =>
      rw [hm] at hok
      simp only at hok
      have := hM _ _ hw hm
      subst this
      cases hi : impactStep C.S.sq (C.S.imp i) C.S.ch (inp.step.sey i) (c.mps.push (fun _ p => M p)) c.mps.positions inp.step.tt
          (st.hists i) with
      | error e =>
        rw [hi] at hok
        cases hok
      | ok r =>
        obtain ⟨m', h, n⟩ := r
        rw [hi] at hok
        simp only at hok
        obtain ⟨rs, es, H⟩ := impChar C.S.sq (C.S.imp i) C.S.ch (inp.step.sey i) c.mps hw hr resp yld (by rw [hsp]; exact hs) M inp.step.tt
          (st.hists i) h m' n hi
        have hget : ({ st.put i m' with hists := Function.update st.hists i h, cnt := Function.update st.cnt i n } : SimSt K).clouds[i]? =
            some { c with mps := m' } := by
          change (st.put i m').clouds[i]? = _
          rw [put_get, if_pos rfl, hg]
          rfl
        rw [hrun _ _ hget] at hok
        unfold SimSt.onCloud at hok
        rw [hget] at hok
        simp only at hok
        cases hf : F m' with
        | error e =>
          rw [hf] at hok
          cases hok
        | ok m2 =>
          rw [hf] at hok
          simp only [Except.ok.injEq] at hok
          refine ⟨m', m2, h, n, rs, es, H, hf, hg, ?_⟩
          rw [← hok]
          have := put_put st i m' m2
          unfold SimSt.put at this ⊢
          simp only [SimSt.mk.injEq, and_true] at this ⊢
          exact this
  obtain ⟨a1, b1, k1, n1, rs1, es1, H1, F1, T1⟩ := one st1 st1' c1 g1 hc.wf r1 rfl h1
  obtain ⟨a2, b2, k2, n2, rs2, es2, H2, F2, T2⟩ := one st2 st2' c2 g2 hc.wf' r2 hc.split.symm h2
  rw [hh] at H1
  obtain ⟨q1, rfl, rfl⟩ := impact_same _ _ _ _ _ _ _ _ _ _ _ _ _ _ _ _ _ _ _ _ H1 H2 hc.charge hc.life
  have ends : ∀ (st st' : SimSt K) (c : XCloud K) (a b : MPs K) (h : ImpHist K) (n : ImpCount K), TurnTo i st st' c b h n → a.WF → F a = .ok b →
      (∀ c, st'.clouds[i]? = some c → c.mps.nmp ≤ c.mps.cap) → b.WF := by
    intro st st' c a b h n T hw hf hfit
    apply wf_back hw (hF.frame _ _ hf)
    have : st'.clouds[i]? = some { c with mps := b } := by
      rw [T.2]
      change (st.put i b).clouds[i]? = _
      rw [put_get, if_pos rfl, T.1]
      rfl
    exact hfit _ this
  have w1 := ends _ _ _ _ _ _ _ T1 H1.wf F1 f1
  have w2 := ends _ _ _ _ _ _ _ T2 H2.wf F2 f2
  obtain ⟨s11, s12, s13, s14⟩ := H1.same
  obtain ⟨s21, s22, s23, s24⟩ := H2.same
  have x1 := (hF.frame _ _ F1).2.2
  have x2 := (hF.frame _ _ F2).2.2
  obtain ⟨L, l1, l2⟩ := hF.pair _ _ _ _ F1 F2 H1.wf H2.wf w1 w2 (by rw [s12, s22, hc.ref]) (by rw [s14, s24, hc.life])
  refine ⟨b1, b2, _, _, T1, T2, w1, w2, ?_, ?_, ?_, ?_⟩
  · intro q
    change weigh q b1.live = weigh q b2.live
    rw [l1, l2]
    unfold weigh
    rw [List.map_append, List.map_append, List.sum_append, List.sum_append]
    congr 1
    exact q1 q
  · change b1.ref = b2.ref
    rw [x1.ref, x2.ref, s12, s22, hc.ref]
  · change b1.split = b2.split
    rw [x1.split, x2.split, s13, s23, hc.split]
  · change b1.lifetime = b2.lifetime
    rw [x1.lifetime, x2.lifetime, s14, s24, hc.life]

/-! ## the turns of all clouds -/

theorem cplTurn_frame (C : CplCfg K G) (inp : CplIn K) (f : K → K → K × K) (i : ℕ) (st st' : SimSt K) (h : cplTurn C inp f i st = .ok st')
    (k : ℕ) (hk : i ≠ k) : st'.clouds[k]? = st.clouds[k]? := by
  unfold cplTurn at h
  cases hi : st.clouds[i]? with
  | none =>
    rw [hi] at h
    cases h
  | some cl =>
    rw [hi] at h
    simp only at h
    cases hm : cplMotion C inp f i cl.mps with
    | error e =>
      rw [hm] at h
      cases h
    | ok m =>
      rw [hm] at h
      simp only [simRun, SimOp.apply, SimSt.track, hi] at h
      cases hs : impactStep C.S.sq (C.S.imp i) C.S.ch (inp.step.sey i) (cl.mps.push (fun k _ => m.phase k)) cl.mps.positions inp.step.tt
          (st.hists i) with
      | error e =>
        rw [hs] at h
        cases h
      | ok r =>
        obtain ⟨m', hh, n⟩ := r
        rw [hs] at h
        simp only at h
        obtain ⟨F, -, hrun⟩ := primary_src C.S inp.step i
        have hget : ({ st.put i m' with hists := Function.update st.hists i hh, cnt := Function.update st.cnt i n } : SimSt K).clouds[i]? =
            some { cl with mps := m' } := by
          change (st.put i m').clouds[i]? = _
          rw [put_get, if_pos rfl, hi]
          rfl
        rw [hrun _ _ hget] at h
        obtain ⟨c, m2, -, -, rfl⟩ := onCloud_spec _ _ _ _ h
        rw [put_get, if_neg hk]
        change (st.put i m').clouds[k]? = _
        rw [put_get, if_neg hk]

theorem cplTurns_frame (C : CplCfg K G) (inp : CplIn K) (f : K → K → K × K) (l : List ℕ) : ∀ (st st' : SimSt K),
    cplTurns C inp f l st = .ok st' → ∀ k, k ∉ l → st'.clouds[k]? = st.clouds[k]? := by
  induction l with
  | nil => intro st st' h k _; cases h; rfl
  | cons i l ih =>
    intro st st' h k hk
    simp only [cplTurns] at h
    cases ht : cplTurn C inp f i st with
    | error e =>
      rw [ht] at h
      cases h
    | ok st1 =>
      rw [ht] at h
      simp only at h
      rw [List.mem_cons, not_or] at hk
      rw [ih _ _ h k hk.2, cplTurn_frame C inp f i st st1 ht k (Ne.symm hk.1)]

/-- two states with the same charge distributions, histograms and counters and without cross ionisation -/
structure SameSim (st st' : SimSt K) : Prop where
  clouds : List.Forall₂ SameCloud st.clouds st'.clouds
  hists : st.hists = st'.hists
  cnt : st.cnt = st'.cnt
  cross : st.cross = none
  cross' : st'.cross = none

theorem SameSim.turn {st1 st2 st1' st2' : SimSt K} {i : ℕ} {c1 c2 : XCloud K} {m1 m2 : MPs K} {h : ImpHist K} {n : ImpCount K}
    (H : SameSim st1 st2) (T1 : TurnTo i st1 st1' c1 m1 h n) (T2 : TurnTo i st2 st2' c2 m2 h n)
    (hc : SameCloud { c1 with mps := m1 } { c2 with mps := m2 }) : SameSim st1' st2' := by
  obtain ⟨g1, rfl⟩ := T1
  obtain ⟨g2, rfl⟩ := T2
  refine ⟨?_, ?_, ?_, H.cross, H.cross'⟩
  · change List.Forall₂ SameCloud (st1.put i m1).clouds (st2.put i m2).clouds
    rw [List.forall₂_iff_get]
    have hl := H.clouds.length_eq
    refine ⟨by simp [SimSt.put, hl], ?_⟩
    intro j hj1 hj2
    have e1 : (st1.put i m1).clouds[j]? = some ((st1.put i m1).clouds.get ⟨j, hj1⟩) := by simp
    have e2 : (st2.put i m2).clouds[j]? = some ((st2.put i m2).clouds.get ⟨j, hj2⟩) := by simp
    rw [put_get] at e1 e2
    by_cases hij : i = j
    · subst hij
      rw [if_pos rfl, g1] at e1
      rw [if_pos rfl, g2] at e2
      simp only [Option.map_some, Option.some.injEq] at e1 e2
      rw [← e1, ← e2]
      exact hc
    · rw [if_neg hij] at e1 e2
      have k1 : j < st1.clouds.length := by simpa [SimSt.put] using hj1
      have k2 : j < st2.clouds.length := by simpa [SimSt.put] using hj2
      have := (List.forall₂_iff_get.1 H.clouds).2 j k1 k2
      rw [List.getElem?_eq_getElem k1, Option.some.injEq] at e1
      rw [List.getElem?_eq_getElem k2, Option.some.injEq] at e2
      rw [← e1, ← e2]
      exact this
  · change Function.update st1.hists i h = Function.update st2.hists i h
    rw [H.hists]
  · change Function.update st1.cnt i n = Function.update st2.cnt i n
    rw [H.cnt]

theorem turns_charge (C : CplCfg K G) (inp : CplIn K) (f : K → K → K × K) (ht : ∀ i, (C.tr i).Local) (hsey : ∀ i, SeyByImpact (inp.step.sey i))
    (l : List ℕ) (hl : l.Nodup) : ∀ (st1 st2 st1' st2' : SimSt K), SameSim st1 st2 →
      (∀ i ∈ l, ∀ c, st1.clouds[i]? = some c → c.mps.nmp < c.mps.cap) → (∀ i ∈ l, ∀ c, st2.clouds[i]? = some c → c.mps.nmp < c.mps.cap) →
      cplTurns C inp f l st1 = .ok st1' → cplTurns C inp f l st2 = .ok st2' →
      (∀ c ∈ st1'.clouds, c.mps.nmp ≤ c.mps.cap) → (∀ c ∈ st2'.clouds, c.mps.nmp ≤ c.mps.cap) → SameSim st1' st2' := by
  induction l with
  | nil =>
    intro st1 st2 st1' st2' H _ _ h1 h2 _ _
    cases h1
    cases h2
    exact H
  | cons i l ih =>
    intro st1 st2 st1' st2' H r1 r2 h1 h2 f1 f2
    rw [List.nodup_cons] at hl
    simp only [cplTurns] at h1 h2
    cases t1 : cplTurn C inp f i st1 with
    | error e =>
      rw [t1] at h1
      cases h1
    | ok a1 =>
      cases t2 : cplTurn C inp f i st2 with
      | error e =>
        rw [t2] at h2
        cases h2
      | ok a2 =>
        rw [t1] at h1
        rw [t2] at h2
        simp only at h1 h2
        have ex : ∀ (st st' : SimSt K), cplTurn C inp f i st = .ok st' → ∃ c, st.clouds[i]? = some c := by
          intro st st' h
          unfold cplTurn at h
          cases hi : st.clouds[i]? with
          | none =>
            rw [hi] at h
            cases h
          | some c => exact ⟨c, rfl⟩
        obtain ⟨c1, g1⟩ := ex _ _ t1
        obtain ⟨c2, g2⟩ := ex _ _ t2
        have hc : SameCloud c1 c2 := by
          obtain ⟨k1, e1⟩ := List.getElem?_eq_some_iff.1 g1
          obtain ⟨k2, e2⟩ := List.getElem?_eq_some_iff.1 g2
          have := (List.forall₂_iff_get.1 H.clouds).2 i k1 k2
          rw [← e1, ← e2]
          exact this
        have fit : ∀ (a st' : SimSt K), cplTurns C inp f l a = .ok st' → (∀ c ∈ st'.clouds, c.mps.nmp ≤ c.mps.cap) →
            ∀ c, a.clouds[i]? = some c → c.mps.nmp ≤ c.mps.cap := by
          intro a st' h hf c hc
          rw [← cplTurns_frame C inp f l a st' h i hl.1] at hc
          exact hf c (List.mem_of_getElem? hc)
        obtain ⟨m1, m2, h, n, T1, T2, S⟩ := turn_charge C inp f i (ht i) (hsey i) st1 st2 a1 a2 c1 c2 g1 g2 hc (r1 i (by simp) c1 g1)
          (r2 i (by simp) c2 g2) (by rw [H.hists]) t1 t2 (fit _ _ h1 f1) (fit _ _ h2 f2)
        have rr : ∀ (st a : SimSt K), cplTurn C inp f i st = .ok a → (∀ j ∈ i :: l, ∀ c, st.clouds[j]? = some c → c.mps.nmp < c.mps.cap) →
            ∀ j ∈ l, ∀ c, a.clouds[j]? = some c → c.mps.nmp < c.mps.cap := by
          intro st a ha hr j hj c hcj
          rw [cplTurn_frame C inp f i st a ha j (fun e => hl.1 (e ▸ hj))] at hcj
          exact hr j (by simp [hj]) c hcj
        exact ih hl.2 a1 a2 st1' st2' (H.turn T1 T2 S) (rr _ _ t1 r1) (rr _ _ t2 r2) h1 h2 f1 f2

/-! ## maintenance that does nothing -/

theorem maintain_quiet (S : SimCfg K) (inp : StepIn K) (hq : inp.newPass = false ∨ inp.skipClean = true ∧ inp.skipRegen = true)
    (ha : ∀ i, (S.regen i).async = none) (l : List ℕ) : ∀ (st st' : SimSt K),
    simRun S (l.map (fun i =>
      SimOp.maintain i inp.newPass inp.skipClean inp.skipRegen (inp.fullD i) (inp.randSoft i) (inp.randAsync i))) st = .ok st' → st' = st := by
  have hm : ∀ i (m : MPs K), m.maintenance inp.newPass inp.skipClean inp.skipRegen (S.full i) (S.regen i) (S.full i).histN (inp.fullD i)
      (inp.randSoft i) (inp.randAsync i) = .ok m := by
    intro i m
    have a1 : (inp.newPass && !inp.skipClean) = false := by rcases hq with h | h <;> simp [h]
    have a2 : (inp.newPass && !inp.skipRegen) = false := by rcases hq with h | h <;> simp [h]
    unfold MPs.maintenance MPs.checkAsync
    simp only [a1, a2, ha i, Bool.false_eq_true, if_false]
  induction l with
  | nil => intro st st' h; cases h; rfl
  | cons i l ih =>
    intro st st' h
    simp only [List.map_cons, simRun, SimOp.apply] at h
    cases hc : st.clouds[i]? with
    | none =>
      simp only [SimSt.onCloud, hc] at h
      cases h
    | some c =>
      simp only [SimSt.onCloud, hc, hm i c.mps, put_self st i c hc] at h
      exact ih st st' h

/-! ## densities -/

theorem scatterArgs_live (s : MPs K) : s.scatterArgs = s.live.map (fun p => (p .x, p .y, p .nel)) := by
  unfold MPs.scatterArgs MPs.live
  rw [List.map_map]
  rfl

theorem deps_same (C : CplCfg K G) (hp : C.pic.ByCharge) (st st' : SimSt K) (h : List.Forall₂ SameCloud st.clouds st'.clouds) :
    cplDeps C st = cplDeps C st' := by
  unfold cplDeps
  apply List.ext_getElem
  · simp [h.length_eq]
  · intro j h1 h2
    rw [List.getElem_mapIdx, List.getElem_mapIdx]
    have k1 : j < st.clouds.length := by simpa using h1
    have k2 : j < st'.clouds.length := by simpa using h2
    have hc : SameCloud st.clouds[j] st'.clouds[j] := (List.forall₂_iff_get.1 h).2 j k1 k2
    apply hp
    intro w
    rw [scatterArgs_live, scatterArgs_live, List.map_map, List.map_map]
    exact hc.charge (fun p _ => w p.x p.y)

/-! ## one step -/

theorem step_charge (C : CplCfg K G) (inp : CplIn K) (ht : ∀ i, (C.tr i).Local) (hsey : ∀ i, SeyByImpact (inp.step.sey i))
    (hp : C.pic.ByCharge) (hq : inp.Quiet) (ha : ∀ i, (C.S.regen i).async = none) (st1 st2 st1' st2' : CplSt K G) (H : SameState st1 st2)
    (r1 : st1.sim.Roomy) (r2 : st2.sim.Roomy) (r1' : st1'.sim.Roomy) (r2' : st2'.sim.Roomy) (h1 : cplStep C inp st1 = .ok st1')
    (h2 : cplStep C inp st2 = .ok st2') : SameState st1' st2' := by
  obtain ⟨a1, b1, t1, x1, m1, d1, l1⟩ := cplStep_parts C inp st1 st1' h1
  obtain ⟨a2, b2, t2, x2, m2, d2, l2⟩ := cplStep_parts C inp st2 st2' h2
  have q1 := maintain_quiet C.S inp.step hq ha _ _ _ m1
  have q2 := maintain_quiet C.S inp.step hq ha _ _ _ m2
  have fl : st1.field C = st2.field C := by
    unfold CplSt.field
    rw [H.rho]
  have nl : st1.sim.clouds.length = st2.sim.clouds.length := H.clouds.length_eq
  have hcr : ∀ (st a : SimSt K) (l : List ℕ), st.cross = none → cplTurns C inp (st1.field C) l st = .ok a → a.cross = none := by
    intro st a l
    induction l generalizing st with
    | nil => intro hn h; cases h; exact hn
    | cons i l ih =>
      intro hn h
      simp only [cplTurns] at h
      cases ht : cplTurn C inp (st1.field C) i st with
      | error e =>
        rw [ht] at h
        cases h
      | ok s =>
        rw [ht] at h
        refine ih s ?_ h
        unfold cplTurn at ht
        split at ht
        · cases ht
        · next cl hcl =>
          split at ht
          · cases ht
          · next m hm =>
            simp only [simRun, SimOp.apply] at ht
            split at ht
            · cases ht
            · next s1 hs1 =>
              unfold SimSt.track at hs1
              rw [hcl] at hs1
              simp only at hs1
              split at hs1
              · cases hs1
              · next m' hh n he =>
                cases hs1
                obtain ⟨F, -, hrun⟩ := primary_src C.S inp.step i
                have hget : ({ st.put i m' with hists := Function.update st.hists i hh, cnt := Function.update st.cnt i n } : SimSt K).clouds[i]? =
                    some { cl with mps := m' } := by
                  change (st.put i m').clouds[i]? = _
                  rw [put_get, if_pos rfl, hcl]
                  rfl
                rw [hrun _ _ hget] at ht
                obtain ⟨c, m2, -, -, rfl⟩ := onCloud_spec _ _ _ _ ht
                exact hn
  have e1 : b1 = a1 := by
    simp only [simRun, SimOp.apply, hcr _ _ _ H.cross t1] at x1
    cases x1
    rfl
  have e2 : b2 = a2 := by
    rw [← fl] at t2
    simp only [simRun, SimOp.apply, hcr _ _ _ H.cross' t2] at x2
    cases x2
    rfl
  subst e1 e2
  rw [q1] at r1'
  rw [q2] at r2'
  rw [← fl, ← nl] at t2
  have S := turns_charge C inp (st1.field C) ht hsey _ List.nodup_range st1.sim st2.sim b1 b2 ⟨H.clouds, H.hists, H.cnt, H.cross, H.cross'⟩
    (fun i _ c hc => r1 c (List.mem_of_getElem? hc)) (fun i _ c hc => r2 c (List.mem_of_getElem? hc)) t1 t2
    (fun c hc => (r1' c hc).le) (fun c hc => (r2' c hc).le)
  rw [← q1, ← q2] at S
  refine ⟨S.clouds, S.hists, S.cnt, S.cross, S.cross', ?_, ?_⟩
  · rw [d1, d2, H.tLast, H.rho]
    unfold cplRho
    rw [q1, q2] at S
    rw [S.clouds.length_eq, deps_same C hp _ _ S.clouds]
  · rw [l1, l2, H.tLast]

--M1
end PyECLOUD
