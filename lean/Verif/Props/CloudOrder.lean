import Verif.Props.Coupled

/-! # C146: the order of the clouds does not matter -/

set_option linter.unusedSectionVars false

namespace PyECLOUD

variable {K G : Type} [Field K] [LinearOrder K] [IsStrictOrderedRing K] [FloorRing K] [AddCommGroup G]

theorem only_run_one (S : SimCfg K) (i : ℕ) (ops : List (SimOp K)) (ho : ∀ op ∈ ops, ∃ op', op.only i = some op') (st s s1 : SimSt K)
    (h : IsSolo i st s) (h1 : simRun (S.solo i) (ops.filterMap (SimOp.only i)) s = .ok s1) : ∃ st1, simRun S ops st = .ok st1 := by
  induction ops generalizing st s with
  | nil => exact ⟨st, rfl⟩
  | cons op ops ih =>
    obtain ⟨op', e⟩ := ho op (by simp)
    rw [List.filterMap_cons_some e] at h1
    simp only [simRun] at h1
    obtain ⟨a1, a2⟩ := only_same S i op op' e st s h
    split at h1
    · cases h1
    · next s2 h2 =>
      cases hop : op.apply S st with
      | error x => rw [a1 x, h2] at hop; cases hop
      | ok st2 =>
        simp only [simRun, hop]
        exact ih (fun o hh => ho o (List.mem_cons_of_mem _ hh)) st2 s2 (a2 st2 s2 hop h2) h1

theorem turnOps_only (S : SimCfg K) (inp : StepIn K) (mot : ℕ → Phase K → Phase K) (i j : ℕ) :
    (SimOp.track j mot (inp.sey j) inp.tt :: inp.primaryOps S j).filterMap (SimOp.only i) =
      if j = i then SimOp.track 0 mot (inp.sey i) inp.tt :: (inp.solo i).primaryOps (S.solo i) 0 else [] := by
  by_cases e : j = i
  · subst e
    rw [List.filterMap_cons_some (show SimOp.only j (.track j mot (inp.sey j) inp.tt) = some _ from if_pos rfl), only_primary, if_pos rfl,
      if_pos rfl]
  · rw [List.filterMap_cons_none (show SimOp.only i (.track j mot (inp.sey j) inp.tt) = none from if_neg e), only_primary, if_neg e,
      if_neg e]

theorem turnOps_mine (S : SimCfg K) (inp : StepIn K) (mot : ℕ → Phase K → Phase K) (i : ℕ) (op : SimOp K)
    (h : op ∈ SimOp.track i mot (inp.sey i) inp.tt :: inp.primaryOps S i) : ∃ op', op.only i = some op' := by
  rcases List.mem_cons.1 h with rfl | h
  · exact ⟨_, if_pos rfl⟩
  · unfold StepIn.primaryOps at h
    rcases List.mem_append.1 h with h | h
    · split at h
      · obtain ⟨m, hm, rfl⟩ := List.mem_mapIdx.1 h
        exact ⟨_, if_pos rfl⟩
      · cases h
    · split at h
      · cases h
      · simp only [List.mem_singleton] at h; subst h; exact ⟨_, if_pos rfl⟩
      · simp only [List.mem_singleton] at h; subst h; exact ⟨_, if_pos rfl⟩

theorem turn_other (C : CplCfg K G) (inp : CplIn K) (f : K → K → K × K) (i j : ℕ) (hij : i ≠ j) (st st1 s : SimSt K)
    (h : IsSolo j st s) (h1 : cplTurn C inp f i st = .ok st1) : IsSolo j st1 s := by
  unfold cplTurn at h1
  split at h1
  · cases h1
  · split at h1
    · cases h1
    · obtain ⟨s1, e, hq⟩ := only_run C.S j _ st st1 s h h1
      rw [turnOps_only, if_neg hij] at e
      cases e
      exact hq

theorem turn_same (C : CplCfg K G) (inp : CplIn K) (f : K → K → K × K) (i : ℕ) (st st1 s : SimSt K)
    (h : IsSolo i st s) (h1 : cplTurn C inp f i st = .ok st1) :
    ∃ s1, cplTurn (C.solo i) (inp.solo i) f 0 s = .ok s1 ∧ IsSolo i st1 s1 := by
  obtain ⟨cl, c1, c2⟩ := h.cloud
  unfold cplTurn at h1
  rw [c1] at h1
  simp only at h1
  split at h1
  · cases h1
  · next m hm =>
    obtain ⟨s1, e, hq⟩ := only_run C.S i _ st st1 s h h1
    rw [turnOps_only, if_pos rfl] at e
    refine ⟨s1, ?_, hq⟩
    unfold cplTurn
    rw [c2]
    simp only [List.getElem?_cons_zero]
    have e2 : cplMotion (C.solo i) (inp.solo i) f 0 cl.mps = .ok m := hm
    rw [e2]
    exact e

theorem turn_conv (C : CplCfg K G) (inp : CplIn K) (f : K → K → K × K) (i : ℕ) (st s s1 : SimSt K)
    (h : IsSolo i st s) (h1 : cplTurn (C.solo i) (inp.solo i) f 0 s = .ok s1) : ∃ st1, cplTurn C inp f i st = .ok st1 := by
  obtain ⟨cl, c1, c2⟩ := h.cloud
  unfold cplTurn at h1
  rw [c2] at h1
  simp only [List.getElem?_cons_zero] at h1
  split at h1
  · cases h1
  · next m hm =>
    unfold cplTurn
    rw [c1]
    simp only
    have e2 : cplMotion C inp f i cl.mps = .ok m := hm
    rw [e2]
    simp only
    refine only_run_one C.S i _ (turnOps_mine C.S inp.step _ i) st s s1 h ?_
    rw [turnOps_only, if_pos rfl]
    exact h1

theorem turns_other (C : CplCfg K G) (inp : CplIn K) (f : K → K → K × K) (l : List ℕ) (j : ℕ) (hj : j ∉ l) (st st1 s : SimSt K)
    (h : IsSolo j st s) (h1 : cplTurns C inp f l st = .ok st1) : IsSolo j st1 s := by
  induction l generalizing st with
  | nil => cases h1; exact h
  | cons i l ih =>
    simp only [cplTurns] at h1
    split at h1
    · cases h1
    · next st2 h2 =>
      exact ih (fun hh => hj (List.mem_cons_of_mem _ hh)) st2 (turn_other C inp f i j (fun e => hj (by simp [e])) st st2 s h h2) h1

theorem turns_same (C : CplCfg K G) (inp : CplIn K) (f : K → K → K × K) (l : List ℕ) (hl : l.Nodup) (j : ℕ) (hj : j ∈ l) (st st1 s : SimSt K)
    (h : IsSolo j st s) (h1 : cplTurns C inp f l st = .ok st1) :
    ∃ s1, cplTurn (C.solo j) (inp.solo j) f 0 s = .ok s1 ∧ IsSolo j st1 s1 := by
  induction l generalizing st with
  | nil => cases hj
  | cons i l ih =>
    obtain ⟨hi, hl'⟩ := List.nodup_cons.1 hl
    simp only [cplTurns] at h1
    split at h1
    · cases h1
    · next st2 h2 =>
      by_cases e : i = j
      · subst e
        obtain ⟨s1, a, b⟩ := turn_same C inp f i st st2 s h h2
        exact ⟨s1, a, turns_other C inp f l i hi st2 st1 s1 b h1⟩
      · exact ih hl' (by rcases List.mem_cons.1 hj with h | h; exacts [absurd h.symm e, h]) st2 (turn_other C inp f i j e st st2 s h h2) h1

theorem turns_conv (C : CplCfg K G) (inp : CplIn K) (f : K → K → K × K) (l : List ℕ) (hl : l.Nodup) (st : SimSt K) (s : ℕ → SimSt K)
    (h : ∀ j ∈ l, IsSolo j st (s j)) (h1 : ∀ j ∈ l, ∃ s1, cplTurn (C.solo j) (inp.solo j) f 0 (s j) = .ok s1) :
    ∃ st1, cplTurns C inp f l st = .ok st1 := by
  induction l generalizing st with
  | nil => exact ⟨st, rfl⟩
  | cons i l ih =>
    obtain ⟨hi, hl'⟩ := List.nodup_cons.1 hl
    obtain ⟨s1, hs1⟩ := h1 i (by simp)
    obtain ⟨st2, h2⟩ := turn_conv C inp f i st (s i) s1 (h i (by simp)) hs1
    simp only [cplTurns, h2]
    refine ih hl' st2 (fun j hj => ?_) (fun j hj => h1 j (List.mem_cons_of_mem _ hj))
    exact turn_other C inp f i j (fun e => hi (e ▸ hj)) st st2 (s j) (h j (List.mem_cons_of_mem _ hj)) h2

/-! ## rearranged simulations -/

/-- the states correspond cloud by cloud -/
def Matched (σ : ℕ → ℕ) (n : ℕ) (st st' : SimSt K) : Prop :=
  st.clouds.length = n ∧ st'.clouds.length = n ∧ ∀ i < n, ∃ s, IsSolo i st s ∧ IsSolo (σ i) st' s

theorem matched_turns (σ : Equiv.Perm ℕ) (n : ℕ) (hσ : ∀ i, σ i < n ↔ i < n) (C C' : CplCfg K G) (inp inp' : CplIn K)
    (hC : ∀ i < n, C.solo i = C'.solo (σ i)) (hi : ∀ i < n, inp.solo i = inp'.solo (σ i)) (f : K → K → K × K) (st st' st1 : SimSt K)
    (hm : Matched σ n st st') (h : cplTurns C inp f (List.range n) st = .ok st1) :
    ∃ st1', cplTurns C' inp' f (List.range n) st' = .ok st1' ∧ Matched σ n st1 st1' := by
  obtain ⟨l1, l2, hs⟩ := hm
  haveI : Nonempty (SimSt K) := ⟨st⟩
  choose! F hF using hs
  have hσ' : ∀ j, σ.symm j < n ↔ j < n := fun j => by rw [← hσ (σ.symm j), Equiv.apply_symm_apply]
  have hfwd : ∀ i < n, ∃ s1, cplTurn (C'.solo (σ i)) (inp'.solo (σ i)) f 0 (F i) = .ok s1 ∧
      IsSolo i st1 s1 := by
    intro i hin
    rw [← hC i hin, ← hi i hin]
    exact turns_same C inp f _ List.nodup_range i (List.mem_range.2 hin) st st1 _ (hF i hin).1 h
  have hs' : ∀ j < n, IsSolo j st' (F (σ.symm j)) := by
    intro j hj
    have hk := (hσ' j).2 hj
    have := (hF _ hk).2
    rwa [Equiv.apply_symm_apply] at this
  obtain ⟨st1', h1'⟩ := turns_conv C' inp' f (List.range n) List.nodup_range st'
    (fun j => F (σ.symm j))
    (fun j hj => hs' j (List.mem_range.1 hj)) (fun j hj => by
      obtain ⟨s1, e, _⟩ := hfwd (σ.symm j) ((hσ' j).2 (List.mem_range.1 hj))
      rw [Equiv.apply_symm_apply] at e
      exact ⟨s1, e⟩)
  refine ⟨st1', h1', ?_, ?_, ?_⟩
  · obtain ⟨mot, hmot⟩ := cplTurns_motion C inp f _ List.nodup_range _ _ h
    rw [simRun_length C.S _ _ _ hmot, l1]
  · obtain ⟨mot, hmot⟩ := cplTurns_motion C' inp' f _ List.nodup_range _ _ h1'
    rw [simRun_length C'.S _ _ _ hmot, l2]
  · intro i hin
    obtain ⟨s1, e, hq⟩ := hfwd i hin
    have hj := (hσ i).2 hin
    obtain ⟨s1', e', hq'⟩ := turns_same C' inp' f _ List.nodup_range (σ i) (List.mem_range.2 hj) st' st1' _ (hs' _ hj) h1'
    rw [Equiv.symm_apply_apply, e] at e'
    cases e'
    exact ⟨s1, hq, hq'⟩

theorem matched_run (σ : Equiv.Perm ℕ) (n : ℕ) (hσ : ∀ i, σ i < n ↔ i < n) (S S' : SimCfg K) (ops ops' : List (SimOp K))
    (hS : ∀ i < n, S.solo i = S'.solo (σ i)) (ho : ∀ i < n, ops.filterMap (SimOp.only i) = ops'.filterMap (SimOp.only (σ i)))
    (hb : ∀ op ∈ ops', ∀ j, op.target = some j → j < n) (st st' st1 : SimSt K) (hx : st'.cross = none)
    (hm : Matched σ n st st') (h : simRun S ops st = .ok st1) :
    ∃ st1', simRun S' ops' st' = .ok st1' ∧ Matched σ n st1 st1' := by
  obtain ⟨l1, l2, hs⟩ := hm
  haveI : Nonempty (SimSt K) := ⟨st⟩
  choose! F hF using hs
  have hσ' : ∀ j, σ.symm j < n ↔ j < n := fun j => by rw [← hσ (σ.symm j), Equiv.apply_symm_apply]
  have hfwd : ∀ i < n, ∃ s1, simRun (S'.solo (σ i)) (ops'.filterMap (SimOp.only (σ i))) (F i) = .ok s1 ∧
      IsSolo i st1 s1 := by
    intro i hin
    rw [← hS i hin, ← ho i hin]
    exact only_run S i _ st st1 _ (hF i hin).1 h
  have hs' : ∀ j < n, IsSolo j st' (F (σ.symm j)) := by
    intro j hj
    have hk := (hσ' j).2 hj
    have := (hF _ hk).2
    rwa [Equiv.apply_symm_apply] at this
  obtain ⟨st1', h1'⟩ := only_run_conv S' ops' st' n hb hx
    (fun j => F (σ.symm j)) hs' (fun j hj => by
      obtain ⟨s1, e, _⟩ := hfwd (σ.symm j) ((hσ' j).2 hj)
      rw [Equiv.apply_symm_apply] at e
      exact ⟨s1, e⟩)
  refine ⟨st1', h1', ?_, ?_, ?_⟩
  · rw [simRun_length S _ _ _ h, l1]
  · rw [simRun_length S' _ _ _ h1', l2]
  · intro i hin
    obtain ⟨s1, e, hq⟩ := hfwd i hin
    have hj := (hσ i).2 hin
    obtain ⟨s1', e', hq'⟩ := only_run S' (σ i) ops' st' st1' _ (hs' _ hj) h1'
    rw [Equiv.symm_apply_apply, e] at e'
    cases e'
    exact ⟨s1, hq, hq'⟩

theorem maintOps_only (inp : StepIn K) (n i : ℕ) (hi : i < n) :
    (inp.maintOps n).filterMap (SimOp.only i) = (inp.solo i).maintOps 1 := by
  have hm := only_flatMap i n hi (fun j => [SimOp.maintain j inp.newPass inp.skipClean inp.skipRegen (inp.fullD j) (inp.randSoft j)
    (inp.randAsync j)]) [SimOp.maintain 0 inp.newPass inp.skipClean inp.skipRegen (inp.fullD i) (inp.randSoft i) (inp.randAsync i)] (by
      intro j _
      by_cases e : j = i
      · subst e; simp [SimOp.only]
      · simp [SimOp.only, e])
  rw [← List.map_eq_flatMap] at hm
  exact hm

theorem perm_range (σ : Equiv.Perm ℕ) (n : ℕ) (hσ : ∀ i, σ i < n ↔ i < n) : ((List.range n).map σ).Perm (List.range n) := by
  refine (List.perm_ext_iff_of_nodup (List.nodup_range.map σ.injective) List.nodup_range).2 (fun j => ?_)
  simp only [List.mem_map, List.mem_range]
  constructor
  · rintro ⟨i, hi, rfl⟩; exact (hσ i).2 hi
  · intro hj
    exact ⟨σ.symm j, by rw [← hσ, Equiv.apply_symm_apply]; exact hj, σ.apply_symm_apply j⟩

theorem matched_deps (σ : Equiv.Perm ℕ) (n : ℕ) (hσ : ∀ i, σ i < n ↔ i < n) (C C' : CplCfg K G)
    (hp : C.pic = C'.pic) (hq : ∀ i < n, C.charge i = C'.charge (σ i)) (st st' : SimSt K) (hm : Matched σ n st st') :
    (cplDeps C st).sum = (cplDeps C' st').sum := by
  obtain ⟨l1, l2, hs⟩ := hm
  have e : ∀ (D : CplCfg K G) (t : SimSt K), cplDeps D t = (List.range t.clouds.length).map (fun i =>
      D.pic.scatter (D.charge i) (((t.clouds[i]?).map (fun c => c.mps.scatterArgs)).getD [])) := by
    intro D t
    unfold cplDeps
    apply List.ext_getElem
    · simp
    · intro i h1 h2
      simp only [List.getElem_mapIdx, List.getElem_map, List.getElem_range]
      rw [List.getElem?_eq_getElem (by simpa using h1)]
      rfl
  rw [e, e, l1, l2]
  refine Eq.trans ?_ ((perm_range σ n hσ).map _).sum_eq
  rw [List.map_map]
  congr 1
  apply List.map_congr_left
  intro i hi
  obtain ⟨s, a, b⟩ := hs i (List.mem_range.1 hi)
  obtain ⟨c, a1, a2⟩ := a.cloud
  obtain ⟨c', b1, b2⟩ := b.cloud
  rw [a2] at b2
  cases b2
  simp only [Function.comp, a1, b1, hp, hq i (List.mem_range.1 hi)]

theorem rearranged_matched (σ : Equiv.Perm ℕ) (st st' : SimSt K) (hx : st.cross = none) (hx' : st'.cross = none)
    (h : st.Rearranged σ st') : Matched σ st.clouds.length st st' := by
  refine ⟨rfl, h.1, fun i hi => ?_⟩
  obtain ⟨a, b, c⟩ := h.2 i hi
  exact ⟨st.solo i st.clouds[i], ⟨⟨_, List.getElem?_eq_getElem hi, rfl⟩, rfl, rfl, hx, rfl⟩,
    ⟨⟨_, by rw [a]; exact List.getElem?_eq_getElem hi, rfl⟩, b.symm, c.symm, hx', rfl⟩⟩

theorem matched_rearranged (σ : Equiv.Perm ℕ) (n : ℕ) (st st' : SimSt K) (h : Matched σ n st st') : st.Rearranged σ st' := by
  obtain ⟨l1, l2, hs⟩ := h
  refine ⟨by rw [l1, l2], fun i hi => ?_⟩
  obtain ⟨s, a, b⟩ := hs i (l1 ▸ hi)
  obtain ⟨c, a1, a2⟩ := a.cloud
  obtain ⟨c', b1, b2⟩ := b.cloud
  rw [a2] at b2
  cases b2
  exact ⟨by rw [a1, b1], by rw [← a.hist, ← b.hist], by rw [← a.cnt, ← b.cnt]⟩

theorem matched_step (σ : Equiv.Perm ℕ) (n : ℕ) (hσ : ∀ i, σ i < n ↔ i < n) (C C' : CplCfg K G) (inp inp' : CplIn K)
    (hC : ∀ i < n, C.solo i = C'.solo (σ i)) (hi : ∀ i < n, inp.solo i = inp'.solo (σ i)) (hn : 0 < n) (st st' st1 : CplSt K G)
    (hx : st.sim.cross = none) (hx' : st'.sim.cross = none)
    (hm : Matched σ n st.sim st'.sim) (hf : st.rho.solved = st'.rho.solved) (hr : st.rho.rho = st'.rho.rho) (ht : st.tLast = st'.tLast)
    (h : cplStep C inp st = .ok st1) :
    ∃ st1', cplStep C' inp' st' = .ok st1' ∧ Matched σ n st1.sim st1'.sim ∧ st1.rho.solved = st1'.rho.solved ∧
      st1.rho.rho = st1'.rho.rho ∧ st1.tLast = st1'.tLast := by
  obtain ⟨s1, s2, h1, h2, h3, h4, h5⟩ := cplStep_parts C inp st st1 h
  have hp : C.pic = C'.pic := (congrArg (fun D : CplCfg K G => D.pic) (hC 0 hn) :)
  have hd1 : C.dtSc = C'.dtSc := (congrArg (fun D : CplCfg K G => D.dtSc) (hC 0 hn) :)
  have hd2 : C.tScOn = C'.tScOn := (congrArg (fun D : CplCfg K G => D.tScOn) (hC 0 hn) :)
  have hq : ∀ i < n, C.charge i = C'.charge (σ i) := fun i hin => congrFun (congrArg (fun D : CplCfg K G => D.charge) (hC i hin) :) 0
  have hS : ∀ i < n, C.S.solo i = C'.S.solo (σ i) := fun i hin => (congrArg (fun D : CplCfg K G => D.S) (hC i hin) :)
  have htt : inp.step.tt = inp'.step.tt := (congrArg (fun D : CplIn K => D.step.tt) (hi 0 hn) :)
  have hfo : inp.force = inp'.force := (congrArg (fun D : CplIn K => D.force) (hi 0 hn) :)
  have hmo : ∀ i < n, (inp.step.solo i).maintOps 1 = (inp'.step.solo (σ i)).maintOps 1 := fun i hin =>
    (congrArg (fun D : CplIn K => D.step.maintOps 1) (hi i hin) :)
  have hfield : st.field C = st'.field C' := by
    unfold CplSt.field
    rw [hf, hp]
  have hl := hm.1
  have hl' := hm.2.1
  rw [hl, hfield] at h1
  obtain ⟨s1', h1', m1⟩ := matched_turns σ n hσ C C' inp inp' hC hi _ st.sim st'.sim s1 hm h1
  obtain ⟨t0, a0, b0⟩ := m1.2.2 0 hn
  have e2 : s2 = s1 := by
    simp only [simRun, SimOp.apply, a0.cross] at h2
    cases h2
    rfl
  subst e2
  have h2' : simRun C'.S [.cross inp'.step.dt inp'.step.xD] s1' = .ok s1' := by
    simp only [simRun, SimOp.apply, b0.cross]
  rw [m1.1] at h3
  obtain ⟨s3', h3', m3⟩ := matched_run σ n hσ C.S C'.S (inp.step.maintOps n) (inp'.step.maintOps n) hS (fun i hin => by
      rw [maintOps_only _ _ _ hin, maintOps_only _ _ _ ((hσ i).2 hin), hmo i hin])
    (fun op ho j hj => by
      obtain ⟨k, hk, rfl⟩ := List.mem_map.1 ho
      cases hj
      exact List.mem_range.1 hk) s2 s1' st1.sim b0.cross m1 h3
  refine ⟨⟨s3', cplRho C' inp' (scCheck C'.dtSc st'.tLast inp'.step.tt).1 s1' st'.rho, (scCheck C'.dtSc st'.tLast inp'.step.tt).2⟩, ?_, m3, ?_⟩
  · unfold cplStep
    simp only [hl', h1', h2', m1.2.1, h3']
  · have hsum := matched_deps σ n hσ C C' hp hq s2 s1' m1
    have hdo : scDo C.tScOn inp.step.tt (scCheck C.dtSc st.tLast inp.step.tt).1 inp.force =
        scDo C'.tScOn inp'.step.tt (scCheck C'.dtSc st'.tLast inp'.step.tt).1 inp'.force := by
      rw [hd1, hd2, ht, htt, hfo]
    have n1 : s2.clouds ≠ [] := by intro e; have := m1.1; rw [e] at this; simp at this; omega
    have n2 : s1'.clouds ≠ [] := by intro e; have := m1.2.1; rw [e] at this; simp at this; omega
    refine ⟨?_, ?_, by rw [h5, hd1, ht, htt]⟩
    all_goals
      rw [h4]
      cases hd : scDo C.tScOn inp.step.tt (scCheck C.dtSc st.tLast inp.step.tt).1 inp.force with
      | true =>
        rw [cplRho_due C inp _ s2 st.rho n1 hd, cplRho_due C' inp' _ s1' st'.rho n2 (hdo ▸ hd)]
        simp only [hsum, hf]
      | false =>
        unfold cplRho
        rw [hdo] at hd
        rw [if_neg (by rw [hdo, hd]; simp), if_neg (by rw [hd]; simp)]
        assumption

theorem matched_cplRun (σ : Equiv.Perm ℕ) (n : ℕ) (hσ : ∀ i, σ i < n ↔ i < n) (C C' : CplCfg K G) (inps inps' : List (CplIn K))
    (hC : ∀ i < n, C.solo i = C'.solo (σ i)) (hi : ∀ i < n, inps.map (fun inp => inp.solo i) = inps'.map (fun inp => inp.solo (σ i)))
    (hn : 0 < n) (st st' st1 : CplSt K G)
    (hm : Matched σ n st.sim st'.sim) (hf : st.rho.solved = st'.rho.solved) (hr : st.rho.rho = st'.rho.rho) (ht : st.tLast = st'.tLast)
    (h : cplRun C inps st = .ok st1) :
    ∃ st1', cplRun C' inps' st' = .ok st1' ∧ Matched σ n st1.sim st1'.sim ∧ st1.rho.solved = st1'.rho.solved ∧
      st1.rho.rho = st1'.rho.rho ∧ st1.tLast = st1'.tLast := by
  induction inps generalizing st st' inps' with
  | nil =>
    have := hi 0 hn
    rw [List.map_nil] at this
    have := List.map_eq_nil_iff.1 this.symm
    subst this
    cases h
    exact ⟨st', rfl, hm, hf, hr, ht⟩
  | cons inp inps ih =>
    cases inps' with
    | nil => have := hi 0 hn; simp at this
    | cons inp' inps' =>
      simp only [cplRun] at h
      split at h
      · cases h
      · next st2 h2 =>
        obtain ⟨t0, a0, b0⟩ := hm.2.2 0 hn
        obtain ⟨st2', h2', m2, f2, r2, t2⟩ := matched_step σ n hσ C C' inp inp' hC (fun i hin => by
            have := hi i hin
            simp only [List.map_cons, List.cons.injEq] at this
            exact this.1) hn st st' st2 a0.cross b0.cross hm hf hr ht h2
        simp only [cplRun, h2']
        exact ih inps' (fun i hin => by
            have := hi i hin
            simp only [List.map_cons, List.cons.injEq] at this
            exact this.2) st2 st2' m2 f2 r2 t2 h

/-- **C146.** The order of the clouds does not matter: rearrange the clouds of a simulation without cross ionisation, with their settings,
motion, emission and random numbers. Then the simulation runs to its end too, with the rearranged clouds, histograms and counters, and
the same total density and field of the clouds. -/
theorem C146_order (σ : Equiv.Perm ℕ) (C C' : CplCfg K G) (inps inps' : List (CplIn K)) (st st' st1 : CplSt K G)
    (hn : st.sim.clouds ≠ []) (hσ : ∀ i, σ i < st.sim.clouds.length ↔ i < st.sim.clouds.length)
    (hx : st.sim.cross = none) (hx' : st'.sim.cross = none)
    (hC : ∀ i < st.sim.clouds.length, C'.solo (σ i) = C.solo i)
    (hi : ∀ i < st.sim.clouds.length, inps'.map (fun inp => inp.solo (σ i)) = inps.map (fun inp => inp.solo i))
    (hsim : st.sim.Rearranged σ st'.sim) (hf : st'.rho.solved = st.rho.solved) (hr : st'.rho.rho = st.rho.rho) (ht : st'.tLast = st.tLast)
    (h : cplRun C inps st = .ok st1) :
    ∃ st1', cplRun C' inps' st' = .ok st1' ∧ st1.sim.Rearranged σ st1'.sim ∧ st1'.rho.rho = st1.rho.rho ∧
      st1'.field C' = st1.field C ∧ st1'.tLast = st1.tLast := by
  have hn0 : 0 < st.sim.clouds.length := List.length_pos_iff.2 hn
  obtain ⟨st1', h', m, f, r, t⟩ := matched_cplRun σ _ hσ C C' inps inps' (fun i hin => (hC i hin).symm) (fun i hin => (hi i hin).symm) hn0
    st st' st1 (rearranged_matched σ _ _ hx hx' hsim) hf.symm hr.symm ht.symm h
  refine ⟨st1', h', matched_rearranged σ _ _ _ m, r.symm, ?_, t.symm⟩
  have hp : C.pic = C'.pic := (congrArg (fun D : CplCfg K G => D.pic) (hC 0 hn0).symm :)
  unfold CplSt.field
  rw [f, hp]

/-! ## example: two clouds of opposite charge, one with gas ionisation, in either order -/

def cplExCfg (first : ℕ) : CplCfg ℚ (ℕ → ℕ → ℚ) where
  S := { simExCfg 100 with gas := fun i => ⟨decide (i = first), 100, 1, 1, 1, 1 / 2, 1⟩ }
  pic := gridPic 5 5 (-2) (-2) 1 (fun rho x _ => (rho 3 3 / 16, x / 8))
  charge := fun i => if i = first then -1 else 1
  qm := fun i => if i = first then -1 else 1 / 2
  tr := fun i => borisObj .none ⟨0, 0, 0⟩ (if i = first then -1 else 1 / 2) 1 1
  isBoris := true
  unifDt := true
  reinterp := false
  dtSc := none
  tScOn := 0

def cplExSt (first : ℕ) : CplSt ℚ (ℕ → ℕ → ℚ) where
  sim := { simExSt with clouds := if first = 0 then [⟨0, 1, simCloud⟩, ⟨1, 2, { simCloud with nmp := 1 }⟩]
    else [⟨1, 2, { simCloud with nmp := 1 }⟩, ⟨0, 1, simCloud⟩] }
  rho := ⟨fun _ _ => 0, [], []⟩
  tLast := 0

def cplExIn : CplIn ℚ := ⟨simExStep false, fun x y => (x / 4, y / 4), none, false, false, false⟩

theorem cplEx_run : ∃ r, cplRun (cplExCfg 0) [cplExIn, cplExIn] (cplExSt 0) = .ok r ∧
    (r.rho.rho 3 3, r.field (cplExCfg 0) 1 1) = (-6209 / 512, (-6209 / 8192, 1 / 8)) ∧
    r.sim.clouds.map (fun c : XCloud ℚ => c.mps.scatterArgs.take 2) =
      [[(71 / 32, -7 / 32, 10), (-31 / 32, -1 / 16, 1)], [(5 / 2, 17 / 128, 15 / 2), (5 / 2, 17 / 128, 15 / 2)]] :=
  exists_ok (by decide +kernel)

/-- the hypotheses of `C145_density`, `C145_grid_charge` and `C145_turn` -/
example : (cplExSt 0).sim.clouds ≠ [] ∧ (∃ r, cplStep (cplExCfg 0) cplExIn (cplExSt 0) = .ok r ∧ r.rho.rho 3 3 = -5 / 2) ∧
    scDo (cplExCfg 0).tScOn cplExIn.step.tt (scCheck (cplExCfg 0).dtSc (cplExSt 0).tLast cplExIn.step.tt).1 cplExIn.force = true ∧
    ∀ i, ((cplExCfg 0).tr i).Pushes :=
  ⟨by decide, exists_ok (by decide +kernel), by decide +kernel, fun _ => borisObj_pushes _ _ _ _ _⟩

theorem swap_lt (i : ℕ) : Equiv.swap 0 1 i < 2 ↔ i < 2 := by
  rcases i with _ | _ | i
  · simp
  · simp
  · rw [Equiv.swap_apply_of_ne_of_ne (by omega) (by omega)]

/-- the two clouds exchanged: `C146_order` applies, and the exchanged simulation has the same density -/
example : ∃ r', cplRun (cplExCfg 1) [cplExIn, cplExIn] (cplExSt 1) = .ok r' ∧ r'.rho.rho 3 3 = -6209 / 512 := by
  obtain ⟨r, hr, e, _⟩ := cplEx_run
  obtain ⟨r', h', _, hd, _⟩ := C146_order (Equiv.swap 0 1) (cplExCfg 0) (cplExCfg 1) [cplExIn, cplExIn] [cplExIn, cplExIn] (cplExSt 0)
    (cplExSt 1) r (by decide) swap_lt rfl rfl (fun i hi => by
      have : i = 0 ∨ i = 1 := by
        have : i < 2 := hi
        omega
      rcases this with rfl | rfl <;> rfl) (fun i _ => rfl)
    ⟨rfl, fun i hi => by
      have : i = 0 ∨ i = 1 := by
        have : i < 2 := hi
        omega
      rcases this with rfl | rfl <;> exact ⟨rfl, rfl, rfl⟩⟩ rfl rfl rfl hr
  exact ⟨r', h', by rw [hd]; exact congrArg Prod.fst e⟩

end PyECLOUD
