import Verif.Lemmas.FullRun
import Verif.Props.Observed
import Verif.Props.SaverSteps

/-! # C142: the step-by-step samples of a run -/

set_option linter.unusedSectionVars false

namespace PyECLOUD

variable {K : Type} [Field K] [LinearOrder K] [IsStrictOrderedRing K] [FloorRing K]

/-- totals of the recorded series of the cross ionisation -/
def Sbs.crossSum (s : Sbs K) : K × K × K := ((s.series .crossNel).sum, (s.series .crossNmp).sum, (s.series .crossDn).sum)

/-- the steps `tr` lead from `s` to `s'`; what left the counters of the cross ionisation (`a` before, `a'` after) is in the series -/
structure Saves (c : SbsCfg K) (nm : ℕ) (s s' : Sbs K) (a a' : ℕ → K × K × K) (tr : List (WitIn K)) : Prop where
  run : s.saveAll c tr = .ok s'
  inv : ∀ inps gs opn, SbsInv c s inps gs opn → ∃ gs' opn', SbsInv c s' (inps ++ tr) gs' opn'
  cross : c.cross = true → ∀ inps gs opn, SbsInv c s inps gs opn → a' nm + s.crossSum = a nm + s'.crossSum
  off : c.cross = false → a' nm = a nm

theorem saveAll_app (c : SbsCfg K) (l1 l2 : List (WitIn K)) (s s1 : Sbs K) (h : s.saveAll c l1 = .ok s1) :
    s.saveAll c (l1 ++ l2) = s1.saveAll c l2 := by
  induction l1 generalizing s with
  | nil => cases h; rfl
  | cons i l ih =>
    simp only [List.cons_append, Sbs.saveAll] at h ⊢
    split at h
    · next s2 h2 =>
      exact ih s2 h
    · cases h

theorem Saves.nil (c : SbsCfg K) (nm : ℕ) (s : Sbs K) (a : ℕ → K × K × K) : Saves c nm s s a a [] :=
  ⟨rfl, fun inps gs opn h => ⟨gs, opn, by simpa using h⟩, fun _ _ _ _ _ => rfl, fun _ => rfl⟩

theorem Saves.append {c : SbsCfg K} {nm : ℕ} {s s1 s2 : Sbs K} {a a1 a2 : ℕ → K × K × K} {t1 t2 : List (WitIn K)}
    (h1 : Saves c nm s s1 a a1 t1) (h2 : Saves c nm s1 s2 a1 a2 t2) : Saves c nm s s2 a a2 (t1 ++ t2) where
  run := by rw [saveAll_app c t1 t2 s s1 h1.run]; exact h2.run
  inv := fun inps gs opn h => by
    obtain ⟨g, o, i1⟩ := h1.inv inps gs opn h
    obtain ⟨g', o', i2⟩ := h2.inv _ g o i1
    exact ⟨g', o', by rw [← List.append_assoc]; exact i2⟩
  cross := fun hc inps gs opn h => by
    obtain ⟨g, o, i1⟩ := h1.inv inps gs opn h
    have e1 := h1.cross hc inps gs opn h
    have e2 := h2.cross hc _ g o i1
    have : a2 nm + s.crossSum + (a1 nm + s1.crossSum) = a nm + s2.crossSum + (a1 nm + s1.crossSum) := by
      calc a2 nm + s.crossSum + (a1 nm + s1.crossSum) = (a1 nm + s.crossSum) + (a2 nm + s1.crossSum) := by abel
        _ = (a nm + s1.crossSum) + (a1 nm + s2.crossSum) := by rw [e1, e2]
        _ = _ := by abel
    exact add_right_cancel this
  off := fun hc => (h2.off hc).trans (h1.off hc)

/-- taking one step -/
theorem Saves.one (c : SbsCfg K) (nm : ℕ) (s s' : Sbs K) (a a' : ℕ → K × K × K) (wi : WitIn K) (h : s.save c wi = .ok s')
    (ha : c.cross = true → c.dtSave ≤ wi.tt - s.tLast → a' nm = a nm + wi.cross)
    (hb : ¬ (c.cross = true ∧ c.dtSave ≤ wi.tt - s.tLast) → a' nm = a nm) : Saves c nm s s' a a' [wi] where
  run := by simp only [Sbs.saveAll, h]
  inv := fun inps gs opn hi => by
    obtain ⟨s2, h2, h3⟩ := sbsInv_save c s inps gs opn hi wi
    rw [h] at h2
    cases h2
    rcases h3 with ⟨-, h3⟩ | ⟨-, h3⟩ <;> exact ⟨_, _, h3⟩
  cross := fun hc inps gs opn hi => by
    obtain ⟨s2, h2, h3⟩ := sbsInv_save c s inps gs opn hi wi
    rw [h] at h2
    cases h2
    have hm : ∀ ch ∈ [SCh.crossNel, .crossNmp, .crossDn], ch ∈ c.channels := by
      intro ch hch
      rw [C50_channels]
      simp only [List.mem_cons, List.not_mem_nil, or_false] at hch
      rcases hch with rfl | rfl | rfl <;> simp [SbsCfg.Recorded, hc]
    rcases h3 with ⟨h4, h3⟩ | ⟨h4, h3⟩
    · have ha := hb (fun hh => absurd hh.2 (by rw [hi.last]; exact not_le.2 h4))
      have e : s'.crossSum = s.crossSum := by
        unfold Sbs.crossSum
        rw [h3.recd _ (hm _ (by simp)), h3.recd _ (hm _ (by simp)), h3.recd _ (hm _ (by simp)),
          hi.recd _ (hm _ (by simp)), hi.recd _ (hm _ (by simp)), hi.recd _ (hm _ (by simp))]
      rw [ha, e]
    · have ha := ha hc (by rw [hi.last]; exact h4)
      have e : s'.crossSum = s.crossSum + wi.cross := by
        unfold Sbs.crossSum
        rw [h3.recd _ (hm _ (by simp)), h3.recd _ (hm _ (by simp)), h3.recd _ (hm _ (by simp)),
          hi.recd _ (hm _ (by simp)), hi.recd _ (hm _ (by simp)), hi.recd _ (hm _ (by simp))]
        simp [Group.record, Prod.ext_iff]
      rw [ha, e]
      abel
  off := fun hc => hb (fun hh => by rw [hc] at hh; exact absurd hh.1 (by simp))

/-- one saver, next to its histogram part -/
theorem witnessOne_obs (sc : ℕ → Option (SavCfg K)) (inp : StepIn K) (w : ℕ → WitIn K) (i : ℕ) (st st1 : FullSt K)
    (h : witnessOne sc inp w i st = .ok st1) (a : ℕ → K × K × K) :
    ∃ a', saveOne (fun j => (sc j).map (fun c => c.hist)) inp w i ⟨st.obs.sim.addCross a, st.obs.sav⟩ =
        .ok ⟨st1.obs.sim.addCross a', st1.obs.sav⟩ ∧
      st1.obs.sim.clouds = st.obs.sim.clouds ∧ st1.obs.sim.cnt = st.obs.sim.cnt ∧ (∀ j, j ≠ i → st1.sbs j = st.sbs j) ∧
      (∀ c, sc i = some c → ∃ cl wi, st.obs.sim.clouds[i]? = some cl ∧ (wi.tt, wi.cnt, wi.cloud) = (inp.tt, st.obs.sim.cnt i, cl.mps) ∧
        wi.lam = inp.main.lam ∧
        Saves c.sbs cl.name (st.sbs i) (st1.sbs i) a a' [wi]) ∧
      (∀ m, (∀ cl, st.obs.sim.clouds[i]? = some cl → m ≠ cl.name) → a' m = a m) := by
  unfold witnessOne at h
  split at h
  · next hn =>
    cases h
    refine ⟨a, ?_, rfl, rfl, fun _ _ => rfl, ?_, fun _ _ => rfl⟩
    · unfold saveOne
      simp only [hn, Option.map_none]
    · intro c hc
      rw [hn] at hc
      cases hc
  · next c hc =>
    split at h
    · cases h
    · next o ho =>
      split at h
      · cases h
      · next cl hcl =>
        split at h
        · cases h
        · next s hs =>
          have hobs : o.sim.clouds = st.obs.sim.clouds ∧ o.sim.cnt = st.obs.sim.cnt ∧ o.sim.cross = st.obs.sim.cross := by
            unfold saveOne at ho
            simp only [hc, Option.map_some, hcl] at ho
            split at ho
            · cases ho
            · cases ho
              exact ⟨rfl, rfl, rfl⟩
          obtain ⟨o1, o2, o3⟩ := hobs
          have hadd := saveOne_add (fun j => (sc j).map (fun c => c.hist)) inp w i st.obs.sim st.obs.sav a
          rw [show (⟨st.obs.sim, st.obs.sav⟩ : ObservedSt K) = st.obs from rfl, ho] at hadd
          by_cases hd : (c.sbs.cross && decide (c.sbs.dtSave ≤ inp.tt - (st.sbs i).tLast)) = true
          · rw [if_pos hd] at h
            cases h
            refine ⟨fun m => if m = cl.name then a m + crossRow o.sim.cross cl.name else a m, ?_, o1, o2, ?_, ?_, ?_⟩
            · rw [crossSaved_add]
              exact hadd
            · intro j hj
              exact Function.update_of_ne hj _ _
            · intro c' hc'
              rw [hc] at hc'
              cases hc'
              refine ⟨cl, sbsInput inp (w i) (st.obs.sim.cnt i) cl st.obs.sim.cross, hcl, rfl, rfl, ?_⟩
              simp only [Function.update_self]
              refine Saves.one c.sbs cl.name _ _ _ _ _ hs (fun _ _ => ?_) (fun hh => absurd ?_ hh)
              · simp only [sbsInput, o3, if_true]
              · simpa only [sbsInput, Bool.and_eq_true, decide_eq_true_eq] using hd
            · intro m hm
              exact if_neg (hm cl hcl)
          · rw [if_neg hd] at h
            cases h
            refine ⟨a, hadd, o1, o2, ?_, ?_, fun _ _ => rfl⟩
            · intro j hj
              exact Function.update_of_ne hj _ _
            · intro c' hc'
              rw [hc] at hc'
              cases hc'
              refine ⟨cl, sbsInput inp (w i) (st.obs.sim.cnt i) cl st.obs.sim.cross, hcl, rfl, rfl, ?_⟩
              simp only [Function.update_self]
              refine Saves.one c.sbs cl.name _ _ _ _ _ hs (fun h1 h2 => absurd ?_ hd) (fun _ => rfl)
              simp only [Bool.and_eq_true, decide_eq_true_eq]
              exact ⟨h1, h2⟩

/-- all savers -/
theorem witnessAll_obs (sc : ℕ → Option (SavCfg K)) (inp : StepIn K) (w : ℕ → WitIn K) (l : List ℕ) (hl : l.Nodup) (st st1 : FullSt K)
    (hnd : (st.obs.sim.clouds.map (fun c => c.name)).Nodup)
    (h : witnessAll sc inp w l st = .ok st1) (a : ℕ → K × K × K) :
    ∃ a', saveAll (fun j => (sc j).map (fun c => c.hist)) inp w l ⟨st.obs.sim.addCross a, st.obs.sav⟩ =
        .ok ⟨st1.obs.sim.addCross a', st1.obs.sav⟩ ∧
      st1.obs.sim.clouds = st.obs.sim.clouds ∧ st1.obs.sim.cnt = st.obs.sim.cnt ∧ (∀ j, j ∉ l → st1.sbs j = st.sbs j) ∧
      (∀ i c, i ∈ l → sc i = some c → ∃ cl wi, st.obs.sim.clouds[i]? = some cl ∧
        (wi.tt, wi.cnt, wi.cloud) = (inp.tt, st.obs.sim.cnt i, cl.mps) ∧ wi.lam = inp.main.lam ∧
        Saves c.sbs cl.name (st.sbs i) (st1.sbs i) a a' [wi]) ∧
      (∀ m, (∀ i ∈ l, ∀ cl, st.obs.sim.clouds[i]? = some cl → m ≠ cl.name) → a' m = a m) := by
  induction l generalizing st a with
  | nil =>
    cases h
    exact ⟨a, rfl, rfl, rfl, fun _ _ => rfl, fun i c hi => by simp at hi, fun _ _ => rfl⟩
  | cons i l ih =>
    simp only [witnessAll] at h
    split at h
    · cases h
    · next s2 h2 =>
      obtain ⟨hi, hl'⟩ := List.nodup_cons.1 hl
      obtain ⟨a2, p1, p2, p3, p4, p5, p6⟩ := witnessOne_obs sc inp w i st s2 h2 a
      obtain ⟨a3, q1, q2, q3, q4, q5, q6⟩ := ih hl' s2 (by rw [p2]; exact hnd) h a2
      have huniq : ∀ (j k : ℕ) (cl cl' : XCloud K), j ≠ k → st.obs.sim.clouds[j]? = some cl → st.obs.sim.clouds[k]? = some cl' → cl.name ≠ cl'.name := by
        intro j k cl cl' hjk e1 e2 he
        apply hjk
        obtain ⟨j1, e1⟩ := List.getElem?_eq_some_iff.1 e1
        obtain ⟨k1, e2⟩ := List.getElem?_eq_some_iff.1 e2
        refine (List.Nodup.getElem_inj_iff hnd (hi := by simpa using j1) (hj := by simpa using k1)).1 ?_
        simp [e1, e2, he]
      refine ⟨a3, ?_, q2.trans p2, q3.trans p3, ?_, ?_, ?_⟩
      · simp only [saveAll, p1]
        exact q1
      · intro j hj
        rw [q4 j (fun hh => hj (List.mem_cons_of_mem _ hh)), p4 j (fun hh => hj (by simp [hh]))]
      · intro j c hj hcj
        rcases List.mem_cons.1 hj with rfl | hj
        · obtain ⟨cl, wi, e1, e2, e4, e3⟩ := p5 c hcj
          refine ⟨cl, wi, e1, e2, e4, ?_⟩
          rw [q4 _ hi]
          have hsame : a3 cl.name = a2 cl.name := q6 _ (fun k hk cl' hcl' => by
            rw [p2] at hcl'
            exact huniq _ k cl cl' (fun hh => hi (by rw [hh]; exact hk)) e1 hcl')
          exact ⟨e3.run, e3.inv, fun hc' x y z hz => by rw [hsame]; exact e3.cross hc' x y z hz,
            fun hc' => by rw [hsame]; exact e3.off hc'⟩
        · obtain ⟨cl, wi, e1, e2, e4, e3⟩ := q5 j c hj hcj
          rw [p2] at e1
          rw [p3] at e2
          have hne : j ≠ i := fun hh => hi (hh ▸ hj)
          refine ⟨cl, wi, e1, e2, e4, ?_⟩
          rw [p4 j hne] at e3
          have hsame : a2 cl.name = a cl.name := p6 _ (fun cl' hcl' => huniq j i cl cl' hne e1 hcl')
          exact ⟨e3.run, e3.inv, fun hc' x y z hz => by rw [← hsame]; exact e3.cross hc' x y z hz,
            fun hc' => by rw [← hsame]; exact e3.off hc'⟩
      · intro m hm
        rw [q6 m (fun k hk cl hcl => hm k (List.mem_cons_of_mem _ hk) cl (by rw [← p2]; exact hcl)),
          p6 m (fun cl hcl => hm i (by simp) cl hcl)]

/-! ## A whole run -/

theorem put_names (st : SimSt K) (i : ℕ) (m : MPs K) : (st.put i m).clouds.map (fun c => c.name) = st.clouds.map (fun c => c.name) := by
  unfold SimSt.put
  simp only
  generalize st.clouds = l
  induction l generalizing i with
  | nil => simp
  | cons a l ih =>
    cases i with
    | zero => simp
    | succ i => simp [ih i]

theorem addLoop_names (prods : List ℕ) (acc : ℕ → NewMPs K) (cs cs' : List (XCloud K)) (n1 n2 : ℕ → K) (r : (ℕ → K) × (ℕ → K))
    (h : addLoop prods acc cs n1 n2 = .ok (cs', r)) : cs'.map (fun c => c.name) = cs.map (fun c => c.name) := by
  induction cs generalizing cs' n1 n2 r with
  | nil => cases h; rfl
  | cons c cs ih =>
    simp only [addLoop] at h
    split at h
    · split at h
      · cases h
      · split at h
        · cases h
        · next h2 => cases h; simp [ih _ _ _ _ h2]
    · split at h
      · cases h
      · next h2 => cases h; simp [ih _ _ _ _ h2]

theorem apply_names (S : SimCfg K) (op : SimOp K) (st st1 : SimSt K) (h : op.apply S st = .ok st1) :
    st1.clouds.map (fun c => c.name) = st.clouds.map (fun c => c.name) := by
  have hput : ∀ (i : ℕ) (f : MPs K → Except PyErr (MPs K)), st.onCloud i f = .ok st1 →
      st1.clouds.map (fun c => c.name) = st.clouds.map (fun c => c.name) := by
    intro i f h
    unfold SimSt.onCloud at h
    split at h
    · cases h
    · split at h
      · cases h
      · cases h
        exact put_names st i _
  cases op with
  | track i step sey tt =>
    simp only [SimOp.apply, SimSt.track] at h
    split at h
    · cases h
    · split at h
      · cases h
      · cases h
        exact put_names st i _
  | gas i lam dt sx sy xb yb d => exact hput _ _ h
  | rays i lam dt u vel ends =>
    simp only [SimOp.apply] at h
    split at h
    · exact hput _ _ h
    · cases h; rfl
  | segs i lam dt u vel seg r0 rounds =>
    simp only [SimOp.apply] at h
    split at h
    · exact hput _ _ h
    · cases h; rfl
  | cross dt d =>
    simp only [SimOp.apply] at h
    split at h
    · cases h; rfl
    · split at h
      · cases h
      · next x cs hg =>
        cases h
        unfold XState.generate at hg
        split at hg
        · cases hg
        · split at hg
          · cases hg
          · next ha => cases hg; exact addLoop_names _ _ _ _ _ _ _ ha
  | maintain i newPass skipClean skipRegen d rs ra => simp only [SimOp.apply] at h; exact hput _ _ h

theorem simRun_names (S : SimCfg K) (ops : List (SimOp K)) (st st1 : SimSt K) (h : simRun S ops st = .ok st1) :
    st1.clouds.map (fun c => c.name) = st.clouds.map (fun c => c.name) := by
  induction ops generalizing st with
  | nil => cases h; rfl
  | cons op ops ih =>
    simp only [simRun] at h
    split at h
    · cases h
    · next st2 h2 => rw [ih st2 h, apply_names S op st st2 h2]

theorem names_at {a b : List (XCloud K)} (h : a.map (fun c => c.name) = b.map (fun c => c.name)) (i : ℕ) (x y : XCloud K)
    (hx : a[i]? = some x) (hy : b[i]? = some y) : x.name = y.name := by
  have := congrArg (fun l => l[i]?) h
  simp only [List.getElem?_map, hx, hy, Option.map_some, Option.some.injEq] at this
  exact this

/-- one step with savers, next to the same step without -/
theorem fullStep_obs {φ : List K → K} (hφ : Measure φ) (S : SimCfg K) (sc : ℕ → Option (SavCfg K)) (inp : StepIn K) (w : ℕ → WitIn K)
    (st st1 : FullSt K) (hnd : (st.obs.sim.clouds.map (fun c => c.name)).Nodup) (h : fullStep S sc inp w st = .ok st1)
    (a : ℕ → K × K × K) (st' : SimSt K) (hs : SameClouds (st.obs.sim.addCross a) st')
    (sh : ∀ i, SameShape (st.obs.sim.hists i) (st'.hists i)) (hl : ∀ i, LinesOk (st.obs.sav i) (st.obs.sim.hists i)) :
    ∃ a' st1', simTimeStep S inp st' = .ok st1' ∧ SameClouds (st1.obs.sim.addCross a') st1' ∧
      (∀ i, SameShape (st1.obs.sim.hists i) (st1'.hists i)) ∧ (∀ i, LinesOk (st1.obs.sav i) (st1.obs.sim.hists i)) ∧
      st1.obs.sim.clouds.map (fun c => c.name) = st.obs.sim.clouds.map (fun c => c.name) ∧
      (∀ i k, histTotal φ (st1.obs.sav i) (st1.obs.sim.hists i) k - histTotal φ (st.obs.sav i) (st.obs.sim.hists i) k =
          φ ((st1'.hists i).key k) - φ ((st'.hists i).key k)) ∧
      (∀ i c cl, sc i = some c → st.obs.sim.clouds[i]? = some cl → ∃ wi, wi.lam = inp.main.lam ∧
        Saves c.sbs cl.name (st.sbs i) (st1.sbs i) a a' [wi] ∧
        ∀ l, simTrace S i (inp :: l) st' = (wi.tt, wi.cnt, wi.cloud) :: simTrace S i l st1') := by
  unfold fullStep at h
  split at h
  · cases h
  · next s1 h1 =>
    split at h
    · cases h
    · next s2 h2 =>
      split at h
      · cases h
      · next s3 h3 =>
        cases h
        have n1 := simRun_names S _ _ _ h1
        obtain ⟨a', q1, q2, q3, q4, q5, q6⟩ := witnessAll_obs sc inp w _ List.nodup_range ⟨⟨s1, st.obs.sav⟩, st.sbs⟩ s2
          (by rw [n1]; exact hnd) h2 a
        have m1 : simRun S (inp.moveOps S st.obs.sim.clouds.length) (st.obs.sim.addCross a) = .ok (s1.addCross a) := by
          rw [simRun_add, h1]; rfl
        have m3 : simRun S (inp.maintOps st.obs.sim.clouds.length) (s2.obs.sim.addCross a') = .ok (s3.addCross a') := by
          rw [simRun_add, h3]; rfl
        have ho : obsStep S (fun j => (sc j).map (fun c => c.hist)) inp w ⟨st.obs.sim.addCross a, st.obs.sav⟩ =
            .ok ⟨s3.addCross a', s2.obs.sav⟩ := by
          unfold obsStep
          change (match simRun S (inp.moveOps S st.obs.sim.clouds.length) (st.obs.sim.addCross a) with | .error e => _ | .ok s1 => _) = _
          rw [m1]
          simp only
          change (match saveAll _ inp w (List.range st.obs.sim.clouds.length) ⟨s1.addCross a, st.obs.sav⟩ with | .error e => _ | .ok s2 => _) = _
          rw [q1]
          simp only
          change (match simRun S (inp.maintOps st.obs.sim.clouds.length) (s2.obs.sim.addCross a') with | .error e => _ | .ok s2 => _) = _
          rw [m3]
        obtain ⟨st1', b1, b2, b3, b4, b5⟩ := obsStep_shift hφ S S rfl (fun i => Quieter.refl _) _ inp w
          ⟨st.obs.sim.addCross a, st.obs.sav⟩ _ st' hs sh hl ho
        refine ⟨a', st1', b1, b2, b3, b4, ?_, b5 (fun _ => rfl), ?_⟩
        · rw [simRun_names S _ _ _ h3, q2, n1]
        · intro i c cl hc hcl
          have hi : i < st.obs.sim.clouds.length := (List.getElem?_eq_some_iff.1 hcl).1
          obtain ⟨cl', wi, e1, e2, e4, e3⟩ := q5 i c (List.mem_range.2 hi) hc
          rw [names_at n1 i cl' cl e1 hcl] at e3
          refine ⟨wi, e4, e3, fun l => ?_⟩
          obtain ⟨t1, c1, c2, -⟩ := simRun_shift S S rfl (fun i => Quieter.refl _) _ _ st' _ hs sh m1
          have hlen : st'.clouds.length = st.obs.sim.clouds.length := by rw [← hs.clouds]; rfl
          have hb1 := b1
          unfold simTimeStep at hb1
          rw [ops_split, simRun_append, hlen, c1] at hb1
          simp only [simTrace, hlen, c1]
          have hcl' : t1.clouds[i]? = some cl' := by rw [← c2.clouds]; exact e1
          rw [hcl']
          simp only
          have hb2 : simRun S (inp.maintOps st.obs.sim.clouds.length) t1 = .ok st1' := hb1
          rw [hb2]
          simp only
          rw [e2, ← c2.cnt]
          rfl

theorem fullRun_obs {φ : List K → K} (hφ : Measure φ) (S : SimCfg K) (sc : ℕ → Option (SavCfg K))
    (steps : List (StepIn K × (ℕ → WitIn K)))
    (st st1 : FullSt K) (hnd : (st.obs.sim.clouds.map (fun c => c.name)).Nodup) (h : fullRun S sc steps st = .ok st1)
    (a : ℕ → K × K × K) (st' : SimSt K) (hs : SameClouds (st.obs.sim.addCross a) st')
    (sh : ∀ i, SameShape (st.obs.sim.hists i) (st'.hists i)) (hl : ∀ i, LinesOk (st.obs.sav i) (st.obs.sim.hists i)) :
    ∃ a' st1', simulate S (steps.map (fun e => e.1)) st' = .ok st1' ∧ SameClouds (st1.obs.sim.addCross a') st1' ∧
      (∀ i k, histTotal φ (st1.obs.sav i) (st1.obs.sim.hists i) k - histTotal φ (st.obs.sav i) (st.obs.sim.hists i) k =
          φ ((st1'.hists i).key k) - φ ((st'.hists i).key k)) ∧
      (∀ i c cl, sc i = some c → st.obs.sim.clouds[i]? = some cl → ∃ tr : List (WitIn K),
        tr.map (fun wi => wi.lam) = steps.map (fun e => e.1.main.lam) ∧ Saves c.sbs cl.name (st.sbs i) (st1.sbs i) a a' tr ∧
        tr.map (fun wi => (wi.tt, wi.cnt, wi.cloud)) = simTrace S i (steps.map (fun e => e.1)) st') := by
  induction steps generalizing st a st' with
  | nil =>
    cases h
    exact ⟨a, st', rfl, hs, fun _ _ => by ring, fun i c cl _ _ => ⟨[], rfl, Saves.nil _ _ _ _, rfl⟩⟩
  | cons e l ih =>
    simp only [fullRun] at h
    split at h
    · cases h
    · next s2 h2 =>
      obtain ⟨a2, t2, p1, p2, p3, p4, p5, p6, p7⟩ := fullStep_obs hφ S sc e.1 e.2 st s2 hnd h2 a st' hs sh hl
      obtain ⟨a3, t3, r1, r2, r3, r4⟩ := ih s2 (by rw [p5]; exact hnd) h a2 t2 p2 p3 p4
      refine ⟨a3, t3, ?_, r2, fun i k => ?_, fun i c cl hc hcl => ?_⟩
      · simp only [List.map_cons, simulate, p1]
        exact r1
      · linear_combination p6 i k + r3 i k
      · obtain ⟨wi, w1, w2, w3⟩ := p7 i c cl hc hcl
        have hi : i < s2.obs.sim.clouds.length := by
          have := congrArg List.length p5
          simp only [List.length_map] at this
          rw [this]
          exact (List.getElem?_eq_some_iff.1 hcl).1
        obtain ⟨tr, x1, x2, x3⟩ := r4 i c _ hc (List.getElem?_eq_getElem hi)
        rw [names_at p5 i _ cl (List.getElem?_eq_getElem hi) hcl] at x2
        refine ⟨wi :: tr, by simp [w1, x1], w2.append x2, ?_⟩
        rw [List.map_cons, x3, List.map_cons, w3]

/-! ## The impacts of a run -/

/-- the operation is not a tracking of cloud `i` -/
def NotTrack (i : ℕ) (op : SimOp K) : Prop := ∀ s e t, op ≠ .track i s e t

theorem simWall_append (S : SimCfg K) (i : ℕ) (g : ImpCount K → K) (l1 l2 : List (SimOp K)) (st st1 : SimSt K)
    (h : simRun S l1 st = .ok st1) : simWall S i g (l1 ++ l2) st = simWall S i g l1 st + simWall S i g l2 st1 := by
  induction l1 generalizing st with
  | nil => cases h; simp [simWall]
  | cons op ops ih =>
    simp only [simRun] at h
    split at h
    · cases h
    · next st2 h2 =>
      simp only [List.cons_append, simWall, h2]
      rw [ih st2 h, add_assoc]

theorem notTrack_cnt (S : SimCfg K) (i : ℕ) (op : SimOp K) (hop : NotTrack i op) (st st1 : SimSt K) (h : op.apply S st = .ok st1) :
    st1.cnt i = st.cnt i := by
  have hput : ∀ (j : ℕ) (f : MPs K → Except PyErr (MPs K)), st.onCloud j f = .ok st1 → st1.cnt i = st.cnt i := by
    intro j f h
    unfold SimSt.onCloud at h
    split at h
    · cases h
    · split at h
      · cases h
      · cases h; rfl
  cases op with
  | track j step sey tt =>
    simp only [SimOp.apply, SimSt.track] at h
    split at h
    · cases h
    · split at h
      · cases h
      · cases h
        have : i ≠ j := fun e => hop step sey tt (by rw [e])
        simp [Function.update_of_ne this]
  | gas i lam dt sx sy xb yb d => exact hput _ _ h
  | rays i lam dt u vel ends =>
    simp only [SimOp.apply] at h
    split at h
    · exact hput _ _ h
    · cases h; rfl
  | segs i lam dt u vel seg r0 rounds =>
    simp only [SimOp.apply] at h
    split at h
    · exact hput _ _ h
    · cases h; rfl
  | cross dt d =>
    simp only [SimOp.apply] at h
    split at h
    · cases h; rfl
    · split at h
      · cases h
      · cases h; rfl
  | maintain j newPass skipClean skipRegen d rs ra => simp only [SimOp.apply] at h; exact hput _ _ h

theorem notTrack_run (S : SimCfg K) (i : ℕ) (g : ImpCount K → K) (ops : List (SimOp K)) (hops : ∀ op ∈ ops, NotTrack i op)
    (st st1 : SimSt K) (h : simRun S ops st = .ok st1) : st1.cnt i = st.cnt i ∧ simWall S i g ops st = 0 := by
  induction ops generalizing st with
  | nil => cases h; exact ⟨rfl, rfl⟩
  | cons op ops ih =>
    simp only [simRun] at h
    split at h
    · cases h
    · next st2 h2 =>
      obtain ⟨i1, i2⟩ := ih (fun o ho => hops o (List.mem_cons_of_mem _ ho)) st2 h
      have hop := hops op (by simp)
      refine ⟨i1.trans (notTrack_cnt S i op hop st st2 h2), ?_⟩
      simp only [simWall, h2, i2, add_zero]
      cases op with
      | track j step sey tt => exact if_neg (fun e => hop step sey tt (by rw [e]))
      | _ => rfl

theorem simRun_split (S : SimCfg K) (l1 l2 : List (SimOp K)) (st st1 : SimSt K) (h : simRun S (l1 ++ l2) st = .ok st1) :
    ∃ s, simRun S l1 st = .ok s ∧ simRun S l2 s = .ok st1 := by
  rw [simRun_append] at h
  cases hs : simRun S l1 st with
  | error e => rw [hs] at h; cases h
  | ok s => rw [hs] at h; exact ⟨s, rfl, h⟩

theorem primaryOps_notTrack (S : SimCfg K) (inp : StepIn K) (i j : ℕ) : ∀ op ∈ inp.primaryOps S j, NotTrack i op := by
  intro op hop s e t he
  subst he
  unfold StepIn.primaryOps at hop
  split at hop <;> simp_all
  all_goals try (split at hop <;> simp_all)

theorem moveOps_wall (S : SimCfg K) (inp : StepIn K) (i : ℕ) (g : ImpCount K → K) (js : List ℕ) (hjs : js.Nodup) (st st1 : SimSt K)
    (h : simRun S (js.flatMap (fun j => SimOp.track j (inp.motion j) (inp.sey j) inp.tt :: inp.primaryOps S j)) st = .ok st1) :
    (i ∈ js → simWall S i g (js.flatMap (fun j => SimOp.track j (inp.motion j) (inp.sey j) inp.tt :: inp.primaryOps S j)) st =
      g (st1.cnt i)) ∧
    (i ∉ js → st1.cnt i = st.cnt i ∧
      simWall S i g (js.flatMap (fun j => SimOp.track j (inp.motion j) (inp.sey j) inp.tt :: inp.primaryOps S j)) st = 0) := by
  induction js generalizing st with
  | nil => cases h; exact ⟨fun hh => by simp at hh, fun _ => ⟨rfl, rfl⟩⟩
  | cons j js ih =>
    obtain ⟨hj, hjs'⟩ := List.nodup_cons.1 hjs
    rw [List.flatMap_cons] at h ⊢
    obtain ⟨s, h1, h2⟩ := simRun_split S _ _ _ _ h
    obtain ⟨i1, i2⟩ := ih hjs' s h2
    rw [simWall_append S i g _ _ st s h1]
    constructor
    · intro hi
      by_cases e : i = j
      · subst e
        obtain ⟨k1, k2⟩ := i2 hj
        rw [k1, k2, add_zero]
        simp only [simRun] at h1
        split at h1
        · cases h1
        · next s' h1' =>
          obtain ⟨m1, m2⟩ := notTrack_run S i g _ (primaryOps_notTrack S inp i i) s' s h1
          simp only [simWall, h1', m2, m1, add_zero, if_true]
      · have hi' : i ∈ js := (List.mem_cons.1 hi).resolve_left e
        rw [i1 hi', (notTrack_run S i g _ ?_ st s h1).2, zero_add]
        intro op hop
        rcases List.mem_cons.1 hop with rfl | hop
        · intro _ _ _ he; cases he; exact e rfl
        · exact primaryOps_notTrack S inp i j op hop
    · intro hi
      obtain ⟨k1, k2⟩ := i2 (fun hh => hi (List.mem_cons_of_mem _ hh))
      obtain ⟨m1, m2⟩ := notTrack_run S i g _ (fun op hop => by
        rcases List.mem_cons.1 hop with rfl | hop
        · intro _ _ _ he; cases he; exact hi (by simp)
        · exact primaryOps_notTrack S inp i j op hop) st s h1
      exact ⟨k1.trans m1, by rw [m2, k2, add_zero]⟩

/-- the sum over the samples of a run is the sum over its impacts -/
theorem trace_wall (S : SimCfg K) (i : ℕ) (g : ImpCount K → K) (steps : List (StepIn K)) (st st1 : SimSt K) (hi : i < st.clouds.length)
    (h : simulate S steps st = .ok st1) :
    ((simTrace S i steps st).map (fun e => g e.2.1)).sum = simWall S i g (simOps S st.clouds.length steps) st := by
  induction steps generalizing st with
  | nil => cases h; rfl
  | cons inp l ih =>
    simp only [simulate] at h
    split at h
    · cases h
    · next s2 h2 =>
      have hlen : s2.clouds.length = st.clouds.length := by
        have := congrArg List.length (simRun_names S _ _ _ h2)
        simpa using this
      have ih' := ih s2 (by rw [hlen]; exact hi) h
      have hops : simOps S st.clouds.length (inp :: l) = inp.ops S st.clouds.length ++ simOps S st.clouds.length l := by
        simp [simOps]
      rw [hops, simWall_append S i g _ _ st s2 h2, ← hlen, ← ih', hlen]
      unfold simTimeStep at h2
      rw [ops_split] at h2 ⊢
      obtain ⟨s1, h1, h3⟩ := simRun_split S _ _ _ _ h2
      have hi1 : i < s1.clouds.length := by
        have := congrArg List.length (simRun_names S _ _ _ h1)
        simp only [List.length_map] at this
        rw [this]; exact hi
      rw [simWall_append S i g _ _ st s1 h1]
      simp only [simTrace, h1, List.getElem?_eq_getElem hi1, h3, List.map_cons, List.sum_cons]
      congr 1
      have hm : simWall S i g (inp.maintOps st.clouds.length) s1 = 0 := by
        refine (notTrack_run S i g _ (fun op hop => ?_) s1 s2 h3).2
        unfold StepIn.maintOps at hop
        obtain ⟨j, -, rfl⟩ := List.mem_map.1 hop
        intro _ _ _ he
        cases he
      rw [hm, add_zero]
      unfold StepIn.moveOps at h1 ⊢
      obtain ⟨s0, h4, h5⟩ := simRun_split S _ _ _ _ h1
      rw [simWall_append S i g _ _ st s0 h4, (moveOps_wall S inp i g _ List.nodup_range st s0 h4).1 (List.mem_range.2 hi)]
      obtain ⟨m1, m2⟩ := notTrack_run S i g _ (fun op hop => by
        rw [List.mem_singleton] at hop
        subst hop
        intro _ _ _ he
        cases he) s0 s1 h5
      rw [m2, m1, add_zero]

theorem apply_cross (S : SimCfg K) (op : SimOp K) (st st1 : SimSt K) (h : op.apply S st = .ok st1) :
    st1.cross.isSome = st.cross.isSome ∧ ((∀ dt d, op ≠ .cross dt d) → st1.cross = st.cross) := by
  have hput : ∀ (i : ℕ) (f : MPs K → Except PyErr (MPs K)), st.onCloud i f = .ok st1 → st1.cross = st.cross := by
    intro i f h
    unfold SimSt.onCloud at h
    split at h
    · cases h
    · split at h
      · cases h
      · cases h; rfl
  have hall : st1.cross = st.cross → st1.cross.isSome = st.cross.isSome ∧ ((∀ dt d, op ≠ .cross dt d) → st1.cross = st.cross) :=
    fun e => ⟨by rw [e], fun _ => e⟩
  cases op with
  | track i step sey tt =>
    simp only [SimOp.apply, SimSt.track] at h
    split at h
    · cases h
    · split at h
      · cases h
      · cases h; exact ⟨rfl, fun _ => rfl⟩
  | gas i lam dt sx sy xb yb d => exact hall (hput _ _ h)
  | rays i lam dt u vel ends =>
    simp only [SimOp.apply] at h
    split at h
    · exact hall (hput _ _ h)
    · cases h; exact ⟨rfl, fun _ => rfl⟩
  | segs i lam dt u vel seg r0 rounds =>
    simp only [SimOp.apply] at h
    split at h
    · exact hall (hput _ _ h)
    · cases h; exact ⟨rfl, fun _ => rfl⟩
  | cross dt d =>
    refine ⟨?_, fun hh => absurd rfl (hh dt d)⟩
    simp only [SimOp.apply] at h
    split at h
    · cases h; rfl
    · next x hx =>
      split at h
      · cases h
      · cases h; rw [hx]; rfl
  | maintain i newPass skipClean skipRegen d rs ra => simp only [SimOp.apply] at h; exact hall (hput _ _ h)

theorem simRun_cross (S : SimCfg K) (ops : List (SimOp K)) (st st1 : SimSt K) (h : simRun S ops st = .ok st1) :
    st1.cross.isSome = st.cross.isSome := by
  induction ops generalizing st with
  | nil => cases h; rfl
  | cons op ops ih =>
    simp only [simRun] at h
    split at h
    · cases h
    · next st2 h2 => rw [ih st2 h, (apply_cross S op st st2 h2).1]

theorem simulate_cross (S : SimCfg K) (steps : List (StepIn K)) (st st1 : SimSt K) (h : simulate S steps st = .ok st1)
    (hs : st.cross.isSome = true) : st1.cross.isSome = true := by
  rw [simulate_eq] at h
  rw [simRun_cross S _ _ _ h, hs]

/-- the gains of a run, by origin -/
theorem gains_parts (S : SimCfg K) (i : ℕ) (ops : List (SimOp K)) (st st1 : SimSt K) (cl : XCloud K) (hcl : st.clouds[i]? = some cl)
    (h : simRun S ops st = .ok st1) :
    simGains S i ops st = simWall S i (fun n => n.nelEmit - n.nelImp) ops st + simPrimaries S i ops st - simCleaned S i ops st +
      ((st1.crossOf cl.name).1 - (st.crossOf cl.name).1) := by
  induction ops generalizing st cl with
  | nil => cases h; simp [simGains, simWall, simPrimaries, simCleaned]
  | cons op ops ih =>
    simp only [simRun] at h
    split at h
    · cases h
    · next s2 h2 =>
      have hn := apply_names S op st s2 h2
      have hi : i < s2.clouds.length := by
        have := congrArg List.length hn
        simp only [List.length_map] at this
        rw [this]
        exact (List.getElem?_eq_some_iff.1 hcl).1
      have e := ih s2 _ (List.getElem?_eq_getElem hi) h
      rw [names_at hn i _ cl (List.getElem?_eq_getElem hi) hcl] at e
      simp only [simGains, simWall, simPrimaries, simCleaned, h2]
      have hx := apply_cross S op st s2 h2
      have key : ∀ u v w z t : K, op.gain S i st s2 = u + v - w + z → (z = (s2.crossOf cl.name).1 - (st.crossOf cl.name).1) →
          op.gain S i st s2 + simGains S i ops s2 = u + simWall S i (fun n => n.nelEmit - n.nelImp) ops s2 +
            (v + simPrimaries S i ops s2) - (w + simCleaned S i ops s2) + ((st1.crossOf cl.name).1 - (st.crossOf cl.name).1) := by
        intro u v w z t h1 h2
        linear_combination e + h1 + h2
      have hcs : (∀ dt d, op ≠ .cross dt d) → (0 : K) = (s2.crossOf cl.name).1 - (st.crossOf cl.name).1 := by
        intro hne
        unfold SimSt.crossOf
        rw [hx.2 hne]
        ring
      cases op with
      | track j step sey tt => exact key _ _ _ 0 0 (by simp [SimOp.gain]) (hcs (by intro _ _ hh; cases hh))
      | gas j lam dt sx sy xb yb d => exact key _ _ _ 0 0 (by simp) (hcs (by intro _ _ hh; cases hh))
      | rays j lam dt u vel ends => exact key _ _ _ 0 0 (by simp) (hcs (by intro _ _ hh; cases hh))
      | segs j lam dt u vel seg r0 rounds => exact key _ _ _ 0 0 (by simp) (hcs (by intro _ _ hh; cases hh))
      | maintain j newPass skipClean skipRegen d rs ra =>
        refine key _ _ _ 0 0 ?_ (hcs (by intro _ _ hh; cases hh))
        simp only [SimOp.gain]
        split <;> simp
      | cross dt d =>
        refine key _ _ _ _ 0 ?_ rfl
        have hx1 := hx.1
        simp only [SimOp.gain, SimSt.crossOf, hcl]
        cases h3 : st.cross with
        | none =>
          rw [h3] at hx1
          cases h4 : s2.cross with
          | none => simp
          | some y => rw [h4] at hx1; simp at hx1
        | some x =>
          rw [h3] at hx1
          cases h4 : s2.cross with
          | none => rw [h4] at hx1; simp at hx1
          | some y => simp

/-! ## C142 -/

/-- **C142**: a simulation with histograms and step-by-step savers also runs without savers, with the same clouds and the same impacts
in the last step; and the series of every cloud are what a fresh saver records of the samples of the simulation without savers,
taken after motion, impacts and sources and before cleaning. The charge, the number of macroparticles and the ionised projectiles
that the simulation without savers counts for the cross ionisation are the totals of the recorded series and what is still in the
counters. -/
theorem C142_samples (S : SimCfg K) (sc : ℕ → Option (SavCfg K)) (steps : List (StepIn K × (ℕ → WitIn K))) (st st1 : FullSt K)
    (hnd : (st.obs.sim.clouds.map (fun c => c.name)).Nodup)
    (hl : ∀ i, (st.obs.sav i).segEnLines.length = (st.obs.sim.hists i).segEnLines.length)
    (h : fullRun S sc steps st = .ok st1) :
    ∃ r, simulate S (steps.map (fun e => e.1)) st.obs.sim = .ok r ∧ st1.obs.sim.clouds = r.clouds ∧ st1.obs.sim.cnt = r.cnt ∧
      ∀ i c cl size, sc i = some c → st.obs.sim.clouds[i]? = some cl → 0 < size → st.sbs i = Sbs.init c.sbs size →
        (∃ tr, (Sbs.init c.sbs size).saveAll c.sbs tr = .ok (st1.sbs i) ∧
          tr.map (fun wi => wi.lam) = steps.map (fun e => e.1.main.lam) ∧
          tr.map (fun wi => (wi.tt, wi.cnt, wi.cloud)) = simTrace S i (steps.map (fun e => e.1)) st.obs.sim) ∧
        (c.sbs.cross = true → st.obs.sim.cross.isSome = true →
          r.crossOf cl.name = ((st1.sbs i).series .crossNel |>.sum, (st1.sbs i).series .crossNmp |>.sum,
            (st1.sbs i).series .crossDn |>.sum) + st1.obs.sim.crossOf cl.name) ∧
        (c.sbs.cross = false → r.crossOf cl.name = st1.obs.sim.crossOf cl.name) := by
  have hzero : st.obs.sim.addCross (fun _ => (0, 0, 0)) = st.obs.sim := by
    unfold SimSt.addCross
    cases hx : st.obs.sim.cross with
    | none => cases hs : st.obs.sim; simp_all
    | some x => cases hs : st.obs.sim; simp_all [XState.add]
  obtain ⟨a', r, h1, h2, -, h4⟩ := fullRun_obs measure_sum S sc steps st st1 hnd h (fun _ => (0, 0, 0)) st.obs.sim
    (by rw [hzero]; exact SameClouds.refl _) (fun i => SameShape.refl _) hl
  refine ⟨r, h1, h2.clouds, h2.cnt, fun i c cl size hc hcl hsize hinit => ?_⟩
  obtain ⟨tr, x1, x2, x3⟩ := h4 i c cl hc hcl
  have hcr : r.crossOf cl.name = if st1.obs.sim.cross.isSome then a' cl.name + st1.obs.sim.crossOf cl.name else (0, 0, 0) := by
    unfold SimSt.crossOf
    rw [← h2.cross]
    unfold SimSt.addCross
    cases st1.obs.sim.cross with
    | none => rfl
    | some x => simp [XState.add, Prod.ext_iff, add_comm]
  refine ⟨⟨tr, by rw [← hinit]; exact x2.run, x1, x3⟩, fun hcross hsome => ?_, fun hoff => ?_⟩
  · have e := x2.cross hcross [] [] [] (by rw [hinit]; exact sbsInv_init c.sbs size hsize)
    rw [hinit] at e
    have e0 : (Sbs.init c.sbs size).crossSum = (0, 0, 0) := by simp [Sbs.crossSum, Sbs.series, Sbs.init]
    rw [e0] at e
    have e1 : a' cl.name = (st1.sbs i).crossSum := by simpa [Prod.ext_iff] using e
    have hs1 : st1.obs.sim.cross.isSome = true := by
      have := simulate_cross S _ _ _ h1 hsome
      rw [← h2.cross] at this
      simpa [SimSt.addCross] using this
    rw [hcr, if_pos hs1, e1]
    rfl
  · rw [hcr, x2.off hoff]
    unfold SimSt.crossOf
    cases st1.obs.sim.cross with
    | none => rfl
    | some x => simp

/-- **C142**: the recorded series of the impacts and what the saver still accumulates add up to the impacts of the simulation without
savers: electrons and energies, impacting and emitted. -/
theorem C142_totals (S : SimCfg K) (sc : ℕ → Option (SavCfg K)) (steps : List (StepIn K × (ℕ → WitIn K))) (st st1 : FullSt K)
    (hnd : (st.obs.sim.clouds.map (fun c => c.name)).Nodup)
    (hl : ∀ i, (st.obs.sav i).segEnLines.length = (st.obs.sim.hists i).segEnLines.length)
    (h : fullRun S sc steps st = .ok st1) (i : ℕ) (c : SavCfg K) (size : ℕ) (hc : sc i = some c) (hi : i < st.obs.sim.clouds.length)
    (hsize : 0 < size) (hinit : st.sbs i = Sbs.init c.sbs size) :
    let ops := simOps S st.obs.sim.clouds.length (steps.map (fun e => e.1))
    let s := st1.sbs i
    (s.series .nelImp).sum + s.aImp = simWall S i (fun n => n.nelImp) ops st.obs.sim ∧
    (s.series .nelEmit).sum + s.aEmit = simWall S i (fun n => n.nelEmit) ops st.obs.sim ∧
    (s.series .enImp).sum + s.aEnImp = simWall S i (fun n => n.enImp) ops st.obs.sim ∧
    (s.series .enEmit).sum + s.aEnEmit = simWall S i (fun n => n.enEmit) ops st.obs.sim := by
  intro ops s
  obtain ⟨r, h1, -, -, h4⟩ := C142_samples S sc steps st st1 hnd hl h
  obtain ⟨⟨tr, x1, -, x3⟩, -⟩ := h4 i c _ size hc (List.getElem?_eq_getElem hi) hsize hinit
  obtain ⟨t1, t2, t3, t4⟩ := C50_total c.sbs size hsize tr _ x1
  have key : ∀ g : ImpCount K → K, (tr.map (fun wi => g wi.cnt)).sum = simWall S i g ops st.obs.sim := by
    intro g
    rw [← trace_wall S i g _ _ _ hi h1, ← x3, List.map_map]
    rfl
  exact ⟨t1.trans (key _), t2.trans (key _), t3.trans (key _), t4.trans (key _)⟩

theorem simWall_sub (S : SimCfg K) (i : ℕ) (f g : ImpCount K → K) (ops : List (SimOp K)) (st : SimSt K) :
    simWall S i (fun n => f n - g n) ops st = simWall S i f ops st - simWall S i g ops st := by
  induction ops generalizing st with
  | nil => simp [simWall]
  | cons op ops ih =>
    simp only [simWall]
    split
    · simp
    · rw [ih]
      cases op with
      | track j _ _ _ => simp only; split <;> ring
      | _ => simp only; ring

/-- **C142**: the time series and the histograms of a simulation that starts with empty savers tell the same: the impacting electrons
recorded step by step are those in the histogram rows of all passages and in the rows of the energy spectrum, and the impacting minus
the emitted energy is in the rows of the deposited energy, each with what is not yet saved. -/
theorem C142_histograms (S : SimCfg K) (hS : S.Ok) (sc : ℕ → Option (SavCfg K)) (steps : List (StepIn K × (ℕ → WitIn K)))
    (hsteps : ∀ e ∈ steps, e.1.Ok S) (st st1 : FullSt K) (hinv : ∀ c ∈ st.obs.sim.clouds, CloudOk S.ch c.mps)
    (hnd : (st.obs.sim.clouds.map (fun c => c.name)).Nodup)
    (hh : RunHealthy S (simOps S st.obs.sim.clouds.length (steps.map (fun e => e.1))) st.obs.sim)
    (hl : ∀ i, (st.obs.sav i).segEnLines.length = (st.obs.sim.hists i).segEnLines.length)
    (h : fullRun S sc steps st = .ok st1) (i : ℕ) (c : SavCfg K) (size : ℕ) (hc : sc i = some c) (hi : i < st.obs.sim.clouds.length)
    (hsize : 0 < size) (hinit : st.sbs i = Sbs.init c.sbs size)
    (hfresh : ∀ k, (st.obs.sav i).rows k = [] ∧ ((st.obs.sim.hists i).key k).sum = 0) :
    let s := st1.sbs i
    let v := st1.obs.sav i
    let m := st1.obs.sim.hists i
    ((v.pass .tot).map List.sum).sum + m.tot.sum = (s.series .nelImp).sum + s.aImp ∧
    ((v.en).map List.sum).sum + m.enLine.sum = (s.series .nelImp).sum + s.aImp ∧
    ((v.pass .energ).map List.sum).sum + m.energ.sum =
      ((s.series .enImp).sum + s.aEnImp) - ((s.series .enEmit).sum + s.aEnEmit) := by
  intro s v m
  have hzero : st.obs.sim.addCross (fun _ => (0, 0, 0)) = st.obs.sim := by
    unfold SimSt.addCross
    cases hx : st.obs.sim.cross with
    | none => cases hs : st.obs.sim; simp_all
    | some x => cases hs : st.obs.sim; simp_all [XState.add]
  obtain ⟨a', r, h1, -, h3, -⟩ := fullRun_obs measure_sum S sc steps st st1 hnd h (fun _ => (0, 0, 0)) st.obs.sim
    (by rw [hzero]; exact SameClouds.refl _) (fun i => SameShape.refl _) hl
  obtain ⟨t1, t2, t3, t4⟩ := C142_totals S sc steps st st1 hnd hl h i c size hc hi hsize hinit
  obtain ⟨w1, w2, w3⟩ := C90_wall S hS (steps.map (fun e => e.1)) (fun inp hi => by
    obtain ⟨e, he, rfl⟩ := List.mem_map.1 hi
    exact hsteps e he) st.obs.sim hinv hnd hh r h1 i
  rw [simWall_sub] at w3
  refine ⟨?_, ?_, ?_⟩
  · have := h3 i .tot
    have f := hfresh .tot
    simp only [histTotal, HistSav.rows, ImpHist.key] at this f
    rw [f.1, f.2] at this
    simp only [List.map_nil, List.sum_nil] at this
    linear_combination this + w1 - t1 + f.2
  · have := h3 i .enLine
    have f := hfresh .enLine
    simp only [histTotal, HistSav.rows, ImpHist.key] at this f
    rw [f.1, f.2] at this
    simp only [List.map_nil, List.sum_nil] at this
    linear_combination this + w2 - t1 + f.2
  · have := h3 i .energ
    have f := hfresh .energ
    simp only [histTotal, HistSav.rows, ImpHist.key] at this f
    rw [f.1, f.2] at this
    simp only [List.map_nil, List.sum_nil] at this
    linear_combination this + w3 - t3 + t4 + f.2

/-! ## C143 -/

/-- **C143**: the charge balance of a simulation can be read from its output: without regenerations the charge of every cloud at the
end is the charge at the beginning, plus the emitted and minus the impacting electrons of the recorded series, plus the primaries,
minus what the cleaning removed, plus the charge of the recorded cross ionisation series; with what the saver and the counters of the
cross ionisation still hold. -/
theorem C143_balance (S : SimCfg K) (hS : S.Ok) (sc : ℕ → Option (SavCfg K)) (steps : List (StepIn K × (ℕ → WitIn K)))
    (hsteps : ∀ e ∈ steps, e.1.Ok S) (st st1 : FullSt K) (hinv : ∀ c ∈ st.obs.sim.clouds, CloudOk S.ch c.mps)
    (hnd : (st.obs.sim.clouds.map (fun c => c.name)).Nodup)
    (hh : RunHealthy S (simOps S st.obs.sim.clouds.length (steps.map (fun e => e.1))) st.obs.sim)
    (hcalm : RunCalm S (simOps S st.obs.sim.clouds.length (steps.map (fun e => e.1))) st.obs.sim)
    (hl : ∀ i, (st.obs.sav i).segEnLines.length = (st.obs.sim.hists i).segEnLines.length)
    (h : fullRun S sc steps st = .ok st1) (i : ℕ) (c : SavCfg K) (cl : XCloud K) (size : ℕ) (hc : sc i = some c)
    (hcl : st.obs.sim.clouds[i]? = some cl) (hsize : 0 < size) (hinit : st.sbs i = Sbs.init c.sbs size)
    (hcross : c.sbs.cross = st.obs.sim.cross.isSome) :
    let ops := simOps S st.obs.sim.clouds.length (steps.map (fun e => e.1))
    let s := st1.sbs i
    st1.obs.sim.charge i = st.obs.sim.charge i + ((s.series .nelEmit).sum + s.aEmit) - ((s.series .nelImp).sum + s.aImp) +
      simPrimaries S i ops st.obs.sim - simCleaned S i ops st.obs.sim +
      ((if c.sbs.cross then (s.series .crossNel).sum else 0) + (st1.obs.sim.crossOf cl.name).1 - (st.obs.sim.crossOf cl.name).1) := by
  intro ops s
  have hi : i < st.obs.sim.clouds.length := (List.getElem?_eq_some_iff.1 hcl).1
  obtain ⟨t1, t2, t3, t4⟩ := C142_totals S sc steps st st1 hnd hl h i c size hc hi hsize hinit
  obtain ⟨r, h1, h2, -, h4⟩ := C142_samples S sc steps st st1 hnd hl h
  obtain ⟨-, x2, x3⟩ := h4 i c cl size hc hcl hsize hinit
  have hb := C90_balance S hS (steps.map (fun e => e.1)) (fun inp hi => by
    obtain ⟨e, he, rfl⟩ := List.mem_map.1 hi
    exact hsteps e he) st.obs.sim hinv hnd hh hcalm r h1 i
  rw [simulate_eq] at h1
  have hg := gains_parts S i ops st.obs.sim r cl hcl h1
  rw [simWall_sub] at hg
  have hch : st1.obs.sim.charge i = r.charge i := by unfold SimSt.charge; rw [h2]
  have hx : (r.crossOf cl.name).1 = (if c.sbs.cross then (s.series .crossNel).sum else 0) + (st1.obs.sim.crossOf cl.name).1 := by
    cases hb : c.sbs.cross with
    | true =>
      rw [x2 hb (by rw [← hcross]; exact hb)]
      simp [s]
    | false => rw [x3 hb]; simp
  rw [hch]
  linear_combination hb + hg + hx - t2 + t1

/-! ## The savers do not stop a simulation -/

/-- the buffers of the savers are in order -/
def BuffersOk (sc : ℕ → Option (SavCfg K)) (sbs : ℕ → Sbs K) : Prop :=
  ∀ i c, sc i = some c → ∃ inps gs opn, SbsInv c.sbs (sbs i) inps gs opn

theorem witnessOne_total (sc : ℕ → Option (SavCfg K)) (inp : StepIn K) (w : ℕ → WitIn K) (i : ℕ) (st : FullSt K)
    (hb : BuffersOk sc st.sbs) (a : ℕ → K × K × K) (o : ObservedSt K)
    (h : saveOne (fun j => (sc j).map (fun c => c.hist)) inp w i ⟨st.obs.sim.addCross a, st.obs.sav⟩ = .ok o) :
    ∃ st1, witnessOne sc inp w i st = .ok st1 ∧ BuffersOk sc st1.sbs := by
  rw [saveOne_add] at h
  unfold witnessOne
  cases hc : sc i with
  | none => exact ⟨st, rfl, hb⟩
  | some c =>
    simp only
    change ((saveOne (fun j => (sc j).map (fun c => c.hist)) inp w i st.obs).map _) = _ at h
    cases ho : saveOne (fun j => (sc j).map (fun c => c.hist)) inp w i st.obs with
    | error e => rw [ho] at h; cases h
    | ok o' =>
      simp only
      cases hcl : st.obs.sim.clouds[i]? with
      | none =>
        unfold saveOne at ho
        simp only [hc, Option.map_some, hcl] at ho
        cases ho
      | some cl =>
        simp only
        obtain ⟨inps, gs, opn, hi⟩ := hb i c hc
        obtain ⟨s', e1, e2⟩ := sbsInv_save c.sbs (st.sbs i) inps gs opn hi (sbsInput inp (w i) (st.obs.sim.cnt i) cl st.obs.sim.cross)
        rw [e1]
        refine ⟨_, rfl, fun j c' hc' => ?_⟩
        by_cases hj : j = i
        · subst hj
          rw [hc] at hc'
          cases hc'
          simp only [Function.update_self]
          rcases e2 with ⟨-, e2⟩ | ⟨-, e2⟩ <;> exact ⟨_, _, _, e2⟩
        · simp only [Function.update_of_ne hj]
          exact hb j c' hc'

theorem witnessAll_total (sc : ℕ → Option (SavCfg K)) (inp : StepIn K) (w : ℕ → WitIn K) (l : List ℕ) (st : FullSt K)
    (hb : BuffersOk sc st.sbs) (a : ℕ → K × K × K) (o : ObservedSt K)
    (h : saveAll (fun j => (sc j).map (fun c => c.hist)) inp w l ⟨st.obs.sim.addCross a, st.obs.sav⟩ = .ok o) :
    ∃ st1, witnessAll sc inp w l st = .ok st1 ∧ BuffersOk sc st1.sbs := by
  induction l generalizing st a with
  | nil => exact ⟨st, rfl, hb⟩
  | cons i l ih =>
    simp only [saveAll] at h
    split at h
    · cases h
    · next o2 h2 =>
      obtain ⟨s2, e1, e2⟩ := witnessOne_total sc inp w i st hb a o2 h2
      obtain ⟨a2, p1, -⟩ := witnessOne_obs sc inp w i st s2 e1 a
      rw [p1] at h2
      cases h2
      obtain ⟨s3, e3, e4⟩ := ih s2 e2 a2 h
      exact ⟨s3, by simp only [witnessAll, e1]; exact e3, e4⟩

theorem map_ok {α β : Type} {x : Except PyErr α} {f : α → β} {y : β} (h : x.map f = .ok y) : ∃ z, x = .ok z ∧ f z = y := by
  cases x with
  | error e => cases h
  | ok z => cases h; exact ⟨z, rfl, rfl⟩

theorem fullStep_total (S : SimCfg K) (sc : ℕ → Option (SavCfg K)) (inp : StepIn K) (w : ℕ → WitIn K) (st : FullSt K)
    (hnd : (st.obs.sim.clouds.map (fun c => c.name)).Nodup) (hb : BuffersOk sc st.sbs) (a : ℕ → K × K × K) (o : ObservedSt K)
    (h : obsStep S (fun j => (sc j).map (fun c => c.hist)) inp w ⟨st.obs.sim.addCross a, st.obs.sav⟩ = .ok o) :
    ∃ st1 a', fullStep S sc inp w st = .ok st1 ∧ BuffersOk sc st1.sbs ∧ o = ⟨st1.obs.sim.addCross a', st1.obs.sav⟩ ∧
      st1.obs.sim.clouds.map (fun c => c.name) = st.obs.sim.clouds.map (fun c => c.name) := by
  unfold obsStep at h
  split at h
  · cases h
  · next t1 h1 =>
    have h1' : simRun S (inp.moveOps S st.obs.sim.clouds.length) (st.obs.sim.addCross a) = .ok t1 := h1
    rw [simRun_add] at h1'
    obtain ⟨s1, g1, rfl⟩ := map_ok h1'
    split at h
    · cases h
    · next o2 h2 =>
      have h2' : saveAll (fun j => (sc j).map (fun c => c.hist)) inp w (List.range st.obs.sim.clouds.length) ⟨s1.addCross a, st.obs.sav⟩ = .ok o2 := h2
      obtain ⟨s2, e1, e2⟩ := witnessAll_total sc inp w (List.range st.obs.sim.clouds.length) ⟨⟨s1, st.obs.sav⟩, st.sbs⟩ hb a o2 h2'
      have n1 := simRun_names S _ _ _ g1
      obtain ⟨a', q1, q2, -⟩ := witnessAll_obs sc inp w _ List.nodup_range ⟨⟨s1, st.obs.sav⟩, st.sbs⟩ s2 (by rw [n1]; exact hnd) e1 a
      rw [q1] at h2'
      cases h2'
      split at h
      · cases h
      · next t3 h3 =>
        cases h
        have h3' : simRun S (inp.maintOps st.obs.sim.clouds.length) (s2.obs.sim.addCross a') = .ok t3 := h3
        rw [simRun_add] at h3'
        obtain ⟨s3, g3, rfl⟩ := map_ok h3'
        refine ⟨⟨⟨s3, s2.obs.sav⟩, s2.sbs⟩, a', ?_, e2, rfl, ?_⟩
        · unfold fullStep
          rw [g1]
          simp only
          rw [e1]
          simp only
          rw [g3]
        · simp only
          rw [simRun_names S _ _ _ g3, q2, n1]

theorem fullRun_total (S : SimCfg K) (sc : ℕ → Option (SavCfg K)) (steps : List (StepIn K × (ℕ → WitIn K))) (st : FullSt K)
    (hnd : (st.obs.sim.clouds.map (fun c => c.name)).Nodup) (hb : BuffersOk sc st.sbs) (a : ℕ → K × K × K) (o : ObservedSt K)
    (h : obsRun S (fun j => (sc j).map (fun c => c.hist)) steps ⟨st.obs.sim.addCross a, st.obs.sav⟩ = .ok o) :
    ∃ st1, fullRun S sc steps st = .ok st1 := by
  induction steps generalizing st a with
  | nil => exact ⟨st, rfl⟩
  | cons e l ih =>
    simp only [obsRun] at h
    split at h
    · cases h
    · next o2 h2 =>
      obtain ⟨s2, a2, p1, p2, p3, p4⟩ := fullStep_total S sc e.1 e.2 st hnd hb a o2 h2
      subst p3
      obtain ⟨s3, p5⟩ := ih s2 (by rw [p4]; exact hnd) p2 a2 h
      exact ⟨s3, by simp only [fullRun, p1]; exact p5⟩

theorem addCross_zero (s : SimSt K) : s.addCross (fun _ => 0) = s := by
  unfold SimSt.addCross
  have : (fun x : XState K => x.add (fun _ => 0)) = id := by
    funext x
    unfold XState.add
    simp
  rw [this]
  simp

/-- **C142**: the savers do not stop a simulation. If it runs to the end without savers, it does so with all savers whose histogram axes
reach to the left of the chamber and whose buffers have at least one place, with the same clouds and counters. -/
theorem C142_observed (S : SimCfg K) (hS : S.Ok) (sc : ℕ → Option (SavCfg K)) (ha : ∀ i c, sc i = some c → AxesOk S c.hist)
    (steps : List (StepIn K × (ℕ → WitIn K))) (hsteps : ∀ e ∈ steps, e.1.Ok S) (st : FullSt K)
    (hinv : ∀ c ∈ st.obs.sim.clouds, CloudOk S.ch c.mps) (hnd : (st.obs.sim.clouds.map (fun c => c.name)).Nodup)
    (hl : ∀ i, (st.obs.sav i).segEnLines.length = (st.obs.sim.hists i).segEnLines.length)
    (hb : ∀ i c, sc i = some c → HasBins c.hist (st.obs.sav i))
    (hinit : ∀ i c, sc i = some c → ∃ size, 0 < size ∧ st.sbs i = Sbs.init c.sbs size)
    (hh : RunHealthy S (simOps S st.obs.sim.clouds.length (steps.map (fun e => e.1))) st.obs.sim)
    (r : SimSt K) (h : simulate S (steps.map (fun e => e.1)) st.obs.sim = .ok r) :
    ∃ st1, fullRun S sc steps st = .ok st1 ∧ st1.obs.sim.clouds = r.clouds ∧ st1.obs.sim.cnt = r.cnt := by
  obtain ⟨o, e1, -⟩ := C140_observed S hS (fun j => (sc j).map (fun c => c.hist)) (fun i c hc => by
      obtain ⟨c', h1, rfl⟩ := Option.map_eq_some_iff.1 hc
      exact ha i c' h1) steps hsteps st.obs hinv hnd hl (fun i c hc => by
      obtain ⟨c', h1, rfl⟩ := Option.map_eq_some_iff.1 hc
      exact hb i c' h1) hh r h
  obtain ⟨st1, e2⟩ := fullRun_total S sc steps st hnd (fun i c hc => by
      obtain ⟨size, h1, h2⟩ := hinit i c hc
      exact ⟨[], [], [], by rw [h2]; exact sbsInv_init c.sbs size h1⟩) (fun _ => 0) o (by rw [addCross_zero]; exact e1)
  obtain ⟨r', f1, f2, f3, -⟩ := C142_samples S sc steps st st1 hnd hl e2
  rw [h] at f1
  cases f1
  exact ⟨st1, e2, f2, f3⟩

/-! ## Concrete cases -/

/-- a record every three half time units -/
def fullExSbs (cross : Bool) : SbsCfg ℚ := ⟨3 / 2, 1, 3, 1, true, cross, true, [(0, 0, 1)], 1⟩

/-- without cross ionisation only the first cloud has a saver, with it both have one -/
def fullExSc (cross : Bool) : ℕ → Option (SavCfg ℚ) := fun i => if cross || i = 0 then some ⟨obsExCfg, fullExSbs cross⟩ else none

def fullExSt : FullSt ℚ := ⟨obsExSt, fun _ => Sbs.init (fullExSbs false) 1⟩

/-- the first cloud ionises and feeds the second -/
def fullExX : XState ℚ := ⟨[(0, [⟨10, 100, 10, 3, true, [1], exXTable⟩])], fun _ => 2, 0, 0⟩

def fullExCloud : MPs ℚ := { simCloud with arr := Function.update simCloud.arr .vz [5, 5, 5, 0, 0, 0, 0, 0, 0, 0, 0, 0] }

def fullExStX : FullSt ℚ :=
  ⟨⟨{ simExSt with cross := some fullExX, clouds := [⟨0, 2, fullExCloud⟩, ⟨1, 2, { simCloud with nmp := 1 }⟩] }, obsExSt.sav⟩,
    fun _ => Sbs.init (fullExSbs true) 1⟩

def fullExSteps : List (StepIn ℚ × (ℕ → WitIn ℚ)) := obsExSteps.map (fun e => ({ e.1 with dt := 1 / 500 }, e.2))

/-- three steps, two records: the second one adds the impacts of the second and third step -/
theorem fullEx_run : ∃ r, fullRun (simExCfg 100) (fullExSc false) obsExSteps fullExSt = .ok r ∧
    ((r.sbs 0).series .t = [1, 3] ∧ (r.sbs 0).series .nelImp = [20, 10] ∧ (r.sbs 0).series .nelEmit = [30, 15]) ∧
    ((r.sbs 0).series .nelTimep = [49, 69] ∧ r.obs.sim.charge 0 = 69) := exists_ok (by decide +kernel)

/-- 31 + 45 - 30 + 24 - 1 = 69 -/
example : fullExSt.obs.sim.charge 0 = 31 ∧
    simPrimaries (simExCfg 100) 0 (simOps (simExCfg 100) 2 (obsExSteps.map (fun e => e.1))) fullExSt.obs.sim = 24 ∧
    simCleaned (simExCfg 100) 0 (simOps (simExCfg 100) 2 (obsExSteps.map (fun e => e.1))) fullExSt.obs.sim = 1 := by
  decide +kernel

/-- the cross ionisation: two electrons were in the counter, twelve are made -/
theorem fullEx_cross : ∃ r, fullRun (simExCfg 100) (fullExSc true) fullExSteps fullExStX = .ok r ∧
    (r.sbs 1).series .crossNel = [14, 0] ∧ (r.sbs 1).series .crossNmp = [3, 0] := exists_ok (by decide +kernel)

/-- hypotheses of the theorems on C142 and C143 -/
example : (simExCfg 100).Ok ∧ (∀ e ∈ obsExSteps, e.1.Ok (simExCfg 100)) ∧
    (∀ c ∈ fullExSt.obs.sim.clouds, CloudOk (simExCfg 100).ch c.mps) ∧
    (fullExSt.obs.sim.clouds.map (fun c => c.name)).Nodup ∧
    RunHealthy (simExCfg 100) (simOps (simExCfg 100) fullExSt.obs.sim.clouds.length (obsExSteps.map (fun e => e.1))) fullExSt.obs.sim ∧
    RunCalm (simExCfg 100) (simOps (simExCfg 100) fullExSt.obs.sim.clouds.length (obsExSteps.map (fun e => e.1))) fullExSt.obs.sim ∧
    (∀ i, (fullExSt.obs.sav i).segEnLines.length = (fullExSt.obs.sim.hists i).segEnLines.length) ∧
    (∀ k, (fullExSt.obs.sav 0).rows k = [] ∧ ((fullExSt.obs.sim.hists 0).key k).sum = 0) ∧
    fullExSc false 0 = some ⟨obsExCfg, fullExSbs false⟩ ∧ fullExSt.sbs 0 = Sbs.init (fullExSbs false) 1 ∧
    (fullExSbs false).cross = fullExSt.obs.sim.cross.isSome := by
  refine ⟨simExCfg_ok 100, ?_, simExSt_ok, by decide, roomRun_healthy _ _ _ (by decide +kernel), calmRun_calm _ _ _ (by decide +kernel),
    fun _ => rfl, ?_, rfl, rfl, rfl⟩
  · intro e he
    simp only [obsExSteps, List.mem_cons, List.not_mem_nil, or_false] at he
    rcases he with rfl | rfl | rfl
    · exact simExStep_ok 100 _
    · exact { simExStep_ok 100 false with }
    · exact { simExStep_ok 100 true with }
  · rintro (_ | _ | _ | _ | _ | _ | _ | _ | _ | j)
    case segE =>
      rcases j with _ | _ | j
      · exact ⟨rfl, by decide +kernel⟩
      · exact ⟨rfl, by decide +kernel⟩
      · exact ⟨rfl, rfl⟩
    all_goals exact ⟨rfl, by decide +kernel⟩

end PyECLOUD
