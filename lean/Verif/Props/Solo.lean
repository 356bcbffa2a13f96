import Verif.Spec.Solo
import Verif.Props.SimStep

/-! # C144: clouds influence one another only through the fields and the cross ionisation -/

set_option linter.unusedSectionVars false

namespace PyECLOUD

variable {K : Type} [Field K] [LinearOrder K] [IsStrictOrderedRing K] [FloorRing K]

/-- what an operation is for cloud `i` alone -/
def SimOp.only (i : ℕ) : SimOp K → Option (SimOp K)
  | .track j step sey tt => if j = i then some (.track 0 step sey tt) else none
  | .gas j lam dt sx sy xb yb d => if j = i then some (.gas 0 lam dt sx sy xb yb d) else none
  | .rays j lam dt u vel ends => if j = i then some (.rays 0 lam dt u vel ends) else none
  | .segs j lam dt u vel seg r0 rounds => if j = i then some (.segs 0 lam dt u vel seg r0 rounds) else none
  | .cross dt d => some (.cross dt d)
  | .maintain j newPass skipClean skipRegen d rs ra => if j = i then some (.maintain 0 newPass skipClean skipRegen d rs ra) else none

/-- the cloud an operation works on -/
def SimOp.target : SimOp K → Option ℕ
  | .track j _ _ _ => some j
  | .gas j _ _ _ _ _ _ _ => some j
  | .rays j _ _ _ _ _ => some j
  | .segs j _ _ _ _ _ _ _ => some j
  | .cross _ _ => none
  | .maintain j _ _ _ _ _ _ => some j

/-- `s` is cloud `i` of `st`, alone -/
structure IsSolo (i : ℕ) (st s : SimSt K) : Prop where
  cloud : ∃ cl, st.clouds[i]? = some cl ∧ s.clouds = [cl]
  hist : s.hists 0 = st.hists i
  cnt : s.cnt 0 = st.cnt i
  cross : st.cross = none
  cross' : s.cross = none

theorem soloPut_get (st : SimSt K) (i j : ℕ) (m : MPs K) :
    (st.put i m).clouds[j]? = if i = j then (st.clouds[j]?).map (fun c => { c with mps := m }) else st.clouds[j]? := by
  unfold SimSt.put
  simp only [List.getElem?_modify]
  split <;> cases st.clouds[j]? <;> simp_all

theorem only_other (S : SimCfg K) (i : ℕ) (op : SimOp K) (ho : op.only i = none) (st st1 s : SimSt K) (h : IsSolo i st s)
    (h1 : op.apply S st = .ok st1) : IsSolo i st1 s := by
  obtain ⟨cl, c1, c2⟩ := h.cloud
  have hput : ∀ (j : ℕ) (f : MPs K → Except PyErr (MPs K)), j ≠ i → st.onCloud j f = .ok st1 → IsSolo i st1 s := by
    intro j f hj h1
    unfold SimSt.onCloud at h1
    split at h1
    · cases h1
    · split at h1
      · cases h1
      · cases h1
        exact ⟨⟨cl, by rw [soloPut_get, if_neg hj]; exact c1, c2⟩, h.hist, h.cnt, h.cross, h.cross'⟩
  cases op with
  | track j step sey tt =>
    simp only [SimOp.only] at ho
    split at ho
    · cases ho
    · next hj =>
      simp only [SimOp.apply, SimSt.track] at h1
      split at h1
      · cases h1
      · split at h1
        · cases h1
        · cases h1
          refine ⟨⟨cl, ?_, c2⟩, ?_, ?_, h.cross, h.cross'⟩
          · change (st.put j _).clouds[i]? = _
            rw [soloPut_get, if_neg hj]; exact c1
          · rw [h.hist]; exact (Function.update_of_ne (Ne.symm hj) _ _).symm
          · rw [h.cnt]; exact (Function.update_of_ne (Ne.symm hj) _ _).symm
  | gas j lam dt sx sy xb yb d =>
    simp only [SimOp.only] at ho
    split at ho
    · cases ho
    · next hj => exact hput j _ hj h1
  | rays j lam dt u vel ends =>
    simp only [SimOp.only] at ho
    split at ho
    · cases ho
    · next hj =>
      simp only [SimOp.apply] at h1
      split at h1
      · exact hput j _ hj h1
      · cases h1; exact h
  | segs j lam dt u vel seg r0 rounds =>
    simp only [SimOp.only] at ho
    split at ho
    · cases ho
    · next hj =>
      simp only [SimOp.apply] at h1
      split at h1
      · exact hput j _ hj h1
      · cases h1; exact h
  | cross dt d => simp [SimOp.only] at ho
  | maintain j newPass skipClean skipRegen d rs ra =>
    simp only [SimOp.only] at ho
    split at ho
    · cases ho
    · next hj => simp only [SimOp.apply] at h1; exact hput j _ hj h1

/-- an operation on cloud `i` does the same to the cloud alone, and fails in the same cases with the same exception -/
theorem only_same (S : SimCfg K) (i : ℕ) (op op' : SimOp K) (ho : op.only i = some op') (st s : SimSt K) (h : IsSolo i st s) :
    (∀ e, op.apply S st = .error e ↔ op'.apply (S.solo i) s = .error e) ∧
    ∀ st1 s1, op.apply S st = .ok st1 → op'.apply (S.solo i) s = .ok s1 → IsSolo i st1 s1 := by
  obtain ⟨cl, c1, c2⟩ := h.cloud
  have hput : ∀ (f : MPs K → Except PyErr (MPs K)),
      (∀ e, st.onCloud i f = .error e ↔ s.onCloud 0 f = .error e) ∧
      ∀ st1 s1, st.onCloud i f = .ok st1 → s.onCloud 0 f = .ok s1 → IsSolo i st1 s1 := by
    intro f
    unfold SimSt.onCloud
    rw [c1, c2]
    simp only [List.getElem?_cons_zero]
    cases hf : f cl.mps with
    | error e => exact ⟨fun e' => Iff.rfl, fun st1 s1 a => by cases a⟩
    | ok m =>
      refine ⟨fun e' => by simp, fun st1 s1 a b => ?_⟩
      cases a; cases b
      exact ⟨⟨_, by rw [soloPut_get, if_pos rfl, c1]; rfl, by simp [SimSt.put, c2]⟩, h.hist, h.cnt, h.cross, h.cross'⟩
  cases op with
  | track j step sey tt =>
    simp only [SimOp.only] at ho
    split at ho
    · next hj =>
      cases ho
      subst hj
      simp only [SimOp.apply, SimSt.track]
      rw [c1, c2]
      simp only [List.getElem?_cons_zero]
      have e1 : impactStep (S.solo j).sq ((S.solo j).imp 0) (S.solo j).ch sey (cl.mps.push step) cl.mps.positions tt (s.hists 0) =
          impactStep S.sq (S.imp j) S.ch sey (cl.mps.push step) cl.mps.positions tt (st.hists j) := by rw [h.hist]; rfl
      rw [e1]
      cases he : impactStep S.sq (S.imp j) S.ch sey (cl.mps.push step) cl.mps.positions tt (st.hists j) with
      | error e => exact ⟨fun e' => Iff.rfl, fun st1 s1 a => by cases a⟩
      | ok r =>
        obtain ⟨m, k, n⟩ := r
        refine ⟨fun e' => by simp, fun st1 s1 a b => ?_⟩
        cases a; cases b
        refine ⟨⟨{ cl with mps := m }, ?_, by simp [SimSt.put, c2]⟩, by simp, by simp, h.cross, h.cross'⟩
        change (st.put j m).clouds[j]? = _
        rw [soloPut_get, if_pos rfl, c1]; rfl
    · cases ho
  | gas j lam dt sx sy xb yb d =>
    simp only [SimOp.only] at ho
    split at ho
    · next hj => cases ho; subst hj; exact hput _
    · cases ho
  | rays j lam dt u vel ends =>
    simp only [SimOp.only] at ho
    split at ho
    · next hj =>
      cases ho
      subst hj
      simp only [SimOp.apply, SimCfg.solo]
      cases S.photo j with
      | rays kc mean => exact hput _
      | off => exact ⟨fun e => by simp, fun st1 s1 a b => by cases a; cases b; exact h⟩
      | segs kc mean l cdf => exact ⟨fun e => by simp, fun st1 s1 a b => by cases a; cases b; exact h⟩
    · cases ho
  | segs j lam dt u vel seg r0 rounds =>
    simp only [SimOp.only] at ho
    split at ho
    · next hj =>
      cases ho
      subst hj
      simp only [SimOp.apply, SimCfg.solo]
      cases S.photo j with
      | segs kc mean l cdf => exact hput _
      | off => exact ⟨fun e => by simp, fun st1 s1 a b => by cases a; cases b; exact h⟩
      | rays kc mean => exact ⟨fun e => by simp, fun st1 s1 a b => by cases a; cases b; exact h⟩
    · cases ho
  | cross dt d =>
    simp only [SimOp.only] at ho
    cases ho
    simp only [SimOp.apply, h.cross, h.cross']
    exact ⟨fun e => by simp, fun st1 s1 a b => by cases a; cases b; exact h⟩
  | maintain j newPass skipClean skipRegen d rs ra =>
    simp only [SimOp.only] at ho
    split at ho
    · next hj => cases ho; subst hj; simp only [SimOp.apply]; exact hput _
    · cases ho

theorem only_run (S : SimCfg K) (i : ℕ) (ops : List (SimOp K)) (st st1 s : SimSt K) (h : IsSolo i st s) (h1 : simRun S ops st = .ok st1) :
    ∃ s1, simRun (S.solo i) (ops.filterMap (SimOp.only i)) s = .ok s1 ∧ IsSolo i st1 s1 := by
  induction ops generalizing st s with
  | nil => cases h1; exact ⟨s, rfl, h⟩
  | cons op ops ih =>
    simp only [simRun] at h1
    split at h1
    · cases h1
    · next st2 h2 =>
      cases ho : op.only i with
      | none =>
        rw [List.filterMap_cons_none ho]
        exact ih st2 s (only_other S i op ho st st2 s h h2) h1
      | some op' =>
        rw [List.filterMap_cons_some ho]
        obtain ⟨a1, a2⟩ := only_same S i op op' ho st s h
        cases hs : op'.apply (S.solo i) s with
        | error e => rw [← a1 e] at hs; rw [h2] at hs; cases hs
        | ok s2 =>
          simp only [simRun, hs]
          exact ih st2 s2 (a2 st2 s2 h2 hs) h1

/-- the other way round: when every cloud runs alone, all run together -/
theorem only_run_conv (S : SimCfg K) (ops : List (SimOp K)) (st : SimSt K) (n : ℕ) (hn : ∀ op ∈ ops, ∀ j, op.target = some j → j < n)
    (hx : st.cross = none) (s : ℕ → SimSt K) (h : ∀ i < n, IsSolo i st (s i))
    (h1 : ∀ i < n, ∃ s1, simRun (S.solo i) (ops.filterMap (SimOp.only i)) (s i) = .ok s1) : ∃ st1, simRun S ops st = .ok st1 := by
  induction ops generalizing st s with
  | nil => exact ⟨st, rfl⟩
  | cons op ops ih =>
    have hcase : ∃ st2, op.apply S st = .ok st2 := by
      cases hop : op.apply S st with
      | ok st2 => exact ⟨st2, rfl⟩
      | error e =>
        exfalso
        cases ht : op.target with
        | none =>
          cases op with
          | cross dt d => simp only [SimOp.apply, hx] at hop; cases hop
          | _ => simp [SimOp.target] at ht
        | some j =>
          have hj := hn op (by simp) j ht
          have ho : ∃ op', op.only j = some op' := by
            cases op with
            | cross dt d => exact ⟨_, rfl⟩
            | _ => simp only [SimOp.target, Option.some.injEq] at ht; subst ht; exact ⟨_, if_pos rfl⟩
          obtain ⟨op', ho⟩ := ho
          obtain ⟨s1, hs1⟩ := h1 j hj
          rw [List.filterMap_cons_some ho] at hs1
          have := (only_same S j op op' ho st (s j) (h j hj)).1 e
          rw [this] at hop
          simp only [simRun, hop] at hs1
          cases hs1
    obtain ⟨st2, h2⟩ := hcase
    simp only [simRun, h2]
    have hx2 : st2.cross = none := by
      cases op with
      | cross dt d => simp only [SimOp.apply, hx] at h2; cases h2; exact hx
      | track j step sey tt =>
        simp only [SimOp.apply, SimSt.track] at h2
        split at h2
        · cases h2
        · split at h2
          · cases h2
          · cases h2; exact hx
      | gas j lam dt sx sy xb yb d =>
        simp only [SimOp.apply, SimSt.onCloud] at h2
        split at h2
        · cases h2
        · split at h2
          · cases h2
          · cases h2; exact hx
      | rays j lam dt u vel ends =>
        simp only [SimOp.apply, SimSt.onCloud] at h2
        split at h2
        · split at h2
          · cases h2
          · split at h2
            · cases h2
            · cases h2; exact hx
        · cases h2; exact hx
      | segs j lam dt u vel seg r0 rounds =>
        simp only [SimOp.apply, SimSt.onCloud] at h2
        split at h2
        · split at h2
          · cases h2
          · split at h2
            · cases h2
            · cases h2; exact hx
        · cases h2; exact hx
      | maintain j newPass skipClean skipRegen d rs ra =>
        simp only [SimOp.apply, SimSt.onCloud] at h2
        split at h2
        · cases h2
        · split at h2
          · cases h2
          · cases h2; exact hx
    refine ih st2 (fun o ho => hn o (List.mem_cons_of_mem _ ho)) hx2
      (fun i => match op.only i with
        | none => s i
        | some op' => match op'.apply (S.solo i) (s i) with
          | .ok s2 => s2
          | .error _ => s i) ?_ ?_
    · intro i hi
      cases ho : op.only i with
      | none => exact only_other S i op ho st st2 (s i) (h i hi) h2
      | some op' =>
        obtain ⟨a1, a2⟩ := only_same S i op op' ho st (s i) (h i hi)
        simp only
        cases hs : op'.apply (S.solo i) (s i) with
        | error e => rw [← a1 e] at hs; rw [h2] at hs; cases hs
        | ok s2 => exact a2 st2 s2 h2 hs
    · intro i hi
      obtain ⟨s1, hs1⟩ := h1 i hi
      cases ho : op.only i with
      | none => rw [List.filterMap_cons_none ho] at hs1; exact ⟨s1, hs1⟩
      | some op' =>
        rw [List.filterMap_cons_some ho] at hs1
        simp only [simRun] at hs1
        split at hs1
        · cases hs1
        · next s2 hs2 => simp only [hs2]; exact ⟨s1, hs1⟩

theorem only_flatMap (i n : ℕ) (hi : i < n) (f : ℕ → List (SimOp K)) (g : List (SimOp K))
    (hf : ∀ j < n, (f j).filterMap (SimOp.only i) = if j = i then g else []) :
    ((List.range n).flatMap f).filterMap (SimOp.only i) = g := by
  have key : ∀ js : List ℕ, js.Nodup → (∀ j ∈ js, j < n) →
      (js.flatMap f).filterMap (SimOp.only i) = if i ∈ js then g else [] := by
    intro js hnd hb
    induction js with
    | nil => simp
    | cons j js ih =>
      obtain ⟨hj, hnd'⟩ := List.nodup_cons.1 hnd
      rw [List.flatMap_cons, List.filterMap_append, hf j (hb j (by simp)), ih hnd' (fun k hk => hb k (List.mem_cons_of_mem _ hk))]
      by_cases e : j = i
      · subst e
        rw [if_pos rfl, if_neg hj, if_pos (by simp), List.append_nil]
      · rw [if_neg e, List.nil_append]
        by_cases hm : i ∈ js
        · rw [if_pos hm, if_pos (by simp [hm])]
        · rw [if_neg hm, if_neg (by simp [hm, Ne.symm e])]
  rw [key _ List.nodup_range (fun j hj => List.mem_range.1 hj), if_pos (List.mem_range.2 hi)]

theorem only_primary (S : SimCfg K) (inp : StepIn K) (i j : ℕ) :
    (inp.primaryOps S j).filterMap (SimOp.only i) = if j = i then (inp.solo i).primaryOps (S.solo i) 0 else [] := by
  have hm : ∀ (g : ℕ → GasDraws K) (l : List (StepBeam K)),
      (l.mapIdx (fun k b => SimOp.gas j b.lam b.dt b.sx b.sy b.xb b.yb (g k))).filterMap (SimOp.only i) =
        if j = i then l.mapIdx (fun k b => SimOp.gas 0 b.lam b.dt b.sx b.sy b.xb b.yb (g k)) else [] := by
    intro g l
    induction l generalizing g with
    | nil => simp
    | cons b l ih =>
      have := ih (fun k => g (k + 1))
      simp only [List.mapIdx_cons]
      by_cases e : j = i
      · rw [if_pos e] at this ⊢
        rw [List.filterMap_cons_some (by simp only [SimOp.only]; rw [if_pos e]), this]
      · rw [if_neg e] at this ⊢
        rw [List.filterMap_cons_none (by simp only [SimOp.only]; rw [if_neg e]), this]
  unfold StepIn.primaryOps
  rw [List.filterMap_append]
  have h1 : (if inp.tt < (S.gas j).tIon ∧ (S.gas j).on = true then
      (inp.main :: inp.secs).mapIdx (fun k b => SimOp.gas j b.lam b.dt b.sx b.sy b.xb b.yb (inp.gasD j k)) else []).filterMap (SimOp.only i) =
      if j = i then (if (inp.solo i).tt < ((S.solo i).gas 0).tIon ∧ ((S.solo i).gas 0).on = true then
        ((inp.solo i).main :: (inp.solo i).secs).mapIdx (fun k b => SimOp.gas 0 b.lam b.dt b.sx b.sy b.xb b.yb ((inp.solo i).gasD 0 k))
        else []) else [] := by
    by_cases e : j = i
    · subst e
      rw [if_pos rfl]
      change _ = if inp.tt < (S.gas j).tIon ∧ (S.gas j).on = true then _ else _
      split
      · rw [hm, if_pos rfl]; rfl
      · rfl
    · rw [if_neg e]
      split
      · rw [hm, if_neg e]
      · rfl
  rw [h1]
  by_cases e : j = i
  · subst e
    simp only [if_true]
    congr 1
    change _ = match S.photo j with | .off => _ | .rays _ _ => _ | .segs _ _ _ _ => _
    cases S.photo j <;> simp [SimOp.only, StepIn.solo]
  · simp only [if_neg e, List.nil_append]
    cases S.photo j <;> simp [SimOp.only, e]

theorem only_ops (S : SimCfg K) (inp : StepIn K) (i n : ℕ) (hi : i < n) :
    (inp.ops S n).filterMap (SimOp.only i) = (inp.solo i).ops (S.solo i) 1 := by
  unfold StepIn.ops
  rw [List.filterMap_append, List.filterMap_append]
  rw [only_flatMap i n hi _ (SimOp.track 0 (inp.motion i) (inp.sey i) inp.tt :: (inp.solo i).primaryOps (S.solo i) 0)]
  · have hm := only_flatMap i n hi (fun j => [SimOp.maintain j inp.newPass inp.skipClean inp.skipRegen (inp.fullD j) (inp.randSoft j)
      (inp.randAsync j)]) [SimOp.maintain 0 inp.newPass inp.skipClean inp.skipRegen (inp.fullD i) (inp.randSoft i) (inp.randAsync i)] (by
        intro j _
        by_cases e : j = i
        · subst e; simp [SimOp.only]
        · simp [SimOp.only, e])
    rw [← List.map_eq_flatMap] at hm
    rw [hm]
    simp [SimOp.only, StepIn.solo]
  · intro j _
    by_cases e : j = i
    · subst e
      rw [List.filterMap_cons_some (show SimOp.only j (.track j (inp.motion j) (inp.sey j) inp.tt) = some _ from if_pos rfl), only_primary, if_pos rfl, if_pos rfl]
    · rw [List.filterMap_cons_none (show SimOp.only i (.track j (inp.motion j) (inp.sey j) inp.tt) = none from if_neg e), only_primary, if_neg e, if_neg e]

theorem ops_target (S : SimCfg K) (inp : StepIn K) (n : ℕ) (op : SimOp K) (h : op ∈ inp.ops S n) (j : ℕ) (hj : op.target = some j) :
    j < n := by
  unfold StepIn.ops at h
  rw [List.mem_append, List.mem_append] at h
  rcases h with (h | h) | h
  · obtain ⟨k, hk, h⟩ := List.mem_flatMap.1 h
    rw [List.mem_range] at hk
    rcases List.mem_cons.1 h with rfl | h
    · cases hj; exact hk
    · unfold StepIn.primaryOps at h
      rcases List.mem_append.1 h with h | h
      · split at h
        · obtain ⟨m, hm, rfl⟩ := List.mem_mapIdx.1 h
          cases hj; exact hk
        · cases h
      · split at h
        · cases h
        · simp only [List.mem_singleton] at h; subst h; cases hj; exact hk
        · simp only [List.mem_singleton] at h; subst h; cases hj; exact hk
  · simp only [List.mem_singleton] at h; subst h; cases hj
  · obtain ⟨k, hk, rfl⟩ := List.mem_map.1 h
    cases hj; exact List.mem_range.1 hk

theorem solo_isSolo (st : SimSt K) (hx : st.cross = none) (i : ℕ) (cl : XCloud K) (hi : st.clouds[i]? = some cl) :
    IsSolo i st (st.solo i cl) := ⟨⟨cl, hi, rfl⟩, rfl, rfl, hx, rfl⟩

theorem isSolo_lt {i : ℕ} {st s : SimSt K} (h : IsSolo i st s) : i < st.clouds.length := by
  obtain ⟨cl, c1, _⟩ := h.cloud
  exact (List.getElem?_eq_some_iff.1 c1).1

theorem isSolo_len {i : ℕ} {st s : SimSt K} (h : IsSolo i st s) : s.clouds.length = 1 := by
  obtain ⟨cl, _, c2⟩ := h.cloud
  rw [c2]; rfl

theorem only_simulate (S : SimCfg K) (i : ℕ) (steps : List (StepIn K)) (st st1 s : SimSt K) (h : IsSolo i st s)
    (h1 : simulate S steps st = .ok st1) :
    ∃ s1, simulate (S.solo i) (steps.map (fun inp => inp.solo i)) s = .ok s1 ∧ IsSolo i st1 s1 := by
  induction steps generalizing st s with
  | nil => cases h1; exact ⟨s, rfl, h⟩
  | cons inp steps ih =>
    simp only [simulate, simTimeStep] at h1
    split at h1
    · cases h1
    · next st2 h2 =>
      obtain ⟨s2, hs2, hq⟩ := only_run S i _ st st2 s h h2
      rw [only_ops S inp i _ (isSolo_lt h)] at hs2
      simp only [List.map_cons, simulate, simTimeStep, isSolo_len h, hs2]
      exact ih st2 s2 hq h1

theorem only_simulate_conv (S : SimCfg K) (steps : List (StepIn K)) (st : SimSt K) (hx : st.cross = none) (s : ℕ → SimSt K)
    (h : ∀ i < st.clouds.length, IsSolo i st (s i))
    (h1 : ∀ i < st.clouds.length, ∃ s1, simulate (S.solo i) (steps.map (fun inp => inp.solo i)) (s i) = .ok s1)
    : ∃ st1, simulate S steps st = .ok st1 := by
  induction steps generalizing st s with
  | nil => exact ⟨st, rfl⟩
  | cons inp steps ih =>
    have hstep : ∀ i < st.clouds.length, ∃ s2, simRun (S.solo i) ((inp.ops S st.clouds.length).filterMap (SimOp.only i)) (s i) = .ok s2 ∧
        ∃ s1, simulate (S.solo i) (steps.map (fun inp => inp.solo i)) s2 = .ok s1 := by
      intro i hi
      obtain ⟨s1, hs1⟩ := h1 i hi
      simp only [List.map_cons, simulate, simTimeStep, isSolo_len (h i hi)] at hs1
      rw [only_ops S inp i _ hi]
      split at hs1
      · cases hs1
      · next s2 hs2 => exact ⟨s2, hs2, s1, hs1⟩
    obtain ⟨st2, h2⟩ := only_run_conv S (inp.ops S st.clouds.length) st st.clouds.length (fun op ho j hj => ops_target S inp _ op ho j hj) hx s h
      (fun i hi => ⟨_, (hstep i hi).choose_spec.1⟩)
    have hl := simRun_length S _ st st2 h2
    simp only [simulate, simTimeStep, h2]
    have hsolo : ∀ i < st.clouds.length, ∀ s2, simRun (S.solo i) ((inp.ops S st.clouds.length).filterMap (SimOp.only i)) (s i) = .ok s2 →
        IsSolo i st2 s2 := by
      intro i hi s2 hs2
      obtain ⟨s2', e, hq⟩ := only_run S i _ st st2 (s i) (h i hi) h2
      rw [e] at hs2
      cases hs2
      exact hq
    rcases Nat.eq_zero_or_pos st.clouds.length with h0 | h0
    · refine ih st2 ?_ s ?_ ?_
      · have hnil : inp.ops S st.clouds.length = [.cross inp.dt inp.xD] := by rw [h0]; rfl
        rw [hnil] at h2
        simp only [simRun, SimOp.apply, hx] at h2
        cases h2
        exact hx
      · intro i hi; omega
      · intro i hi; omega
    · refine ih st2 (hsolo 0 h0 _ (hstep 0 h0).choose_spec.1).cross
        (fun i => if hi : i < st.clouds.length then (hstep i hi).choose else s i) ?_ ?_
      · intro i hi
        rw [hl] at hi
        simp only [dif_pos hi]
        exact hsolo i hi _ (hstep i hi).choose_spec.1
      · intro i hi
        rw [hl] at hi
        simp only [dif_pos hi]
        exact (hstep i hi).choose_spec.2

/-- **C144 (a).** In a simulation without cross ionisation, a cloud, its impact histogram and its impact counters at the end are those of
the simulation of that cloud alone, with the same fields, motion, emission and random numbers. -/
theorem C144_alone (S : SimCfg K) (steps : List (StepIn K)) (st st1 : SimSt K) (hx : st.cross = none) (h : simulate S steps st = .ok st1)
    (i : ℕ) (cl : XCloud K) (hi : st.clouds[i]? = some cl) :
    ∃ (cl1 : XCloud K) (r : SimSt K), st1.clouds[i]? = some cl1 ∧
      simulate (S.solo i) (steps.map (fun inp => inp.solo i)) (st.solo i cl) = .ok r ∧
      r.clouds = [cl1] ∧ r.hists 0 = st1.hists i ∧ r.cnt 0 = st1.cnt i := by
  obtain ⟨s1, h1, hq⟩ := only_simulate S i steps st st1 _ (solo_isSolo st hx i cl hi) h
  obtain ⟨cl1, c1, c2⟩ := hq.cloud
  exact ⟨cl1, s1, c1, h1, c2, hq.hist, hq.cnt⟩

/-- **C144 (b).** Without cross ionisation the simulation of several clouds runs to its end exactly if that of each of them alone does. -/
theorem C144_runs (S : SimCfg K) (steps : List (StepIn K)) (st : SimSt K) (hx : st.cross = none) :
    (∃ st1, simulate S steps st = .ok st1) ↔
      ∀ (i : ℕ) (cl : XCloud K), st.clouds[i]? = some cl →
        ∃ r, simulate (S.solo i) (steps.map (fun inp => inp.solo i)) (st.solo i cl) = .ok r := by
  constructor
  · rintro ⟨st1, h⟩ i cl hi
    obtain ⟨_, r, _, hr, _⟩ := C144_alone S steps st st1 hx h i cl hi
    exact ⟨r, hr⟩
  · intro h
    refine only_simulate_conv S steps st hx (fun i => if hi : i < st.clouds.length then st.solo i st.clouds[i] else st) ?_ ?_
    · intro i hi
      simp only [dif_pos hi]
      exact solo_isSolo st hx i _ (List.getElem?_eq_getElem hi)
    · intro i hi
      simp only [dif_pos hi]
      exact h i _ (List.getElem?_eq_getElem hi)

/-- **C144 (c).** Two simulations without cross ionisation that agree on everything that concerns one cloud (which may be at different
places in the two lists of clouds) end with the same cloud, histogram and counters, whatever other clouds each contains. -/
theorem C144_others (S S' : SimCfg K) (steps steps' : List (StepIn K)) (st st' st1 st1' : SimSt K) (hx : st.cross = none)
    (hx' : st'.cross = none) (h : simulate S steps st = .ok st1) (h' : simulate S' steps' st' = .ok st1') (i j : ℕ) (cl : XCloud K)
    (hi : st.clouds[i]? = some cl) (hj : st'.clouds[j]? = some cl) (hS : S.solo i = S'.solo j)
    (hsteps : steps.map (fun inp => inp.solo i) = steps'.map (fun inp => inp.solo j)) (hh : st.hists i = st'.hists j)
    (hc : st.cnt i = st'.cnt j) :
    st1.clouds[i]? = st1'.clouds[j]? ∧ st1.hists i = st1'.hists j ∧ st1.cnt i = st1'.cnt j := by
  obtain ⟨c1, r, a1, a2, a3, a4, a5⟩ := C144_alone S steps st st1 hx h i cl hi
  obtain ⟨c2, r', b1, b2, b3, b4, b5⟩ := C144_alone S' steps' st' st1' hx' h' j cl hj
  have e : st.solo i cl = st'.solo j cl := by simp only [SimSt.solo, hh, hc]
  rw [hS, hsteps, e, b2] at a2
  cases a2
  rw [b3] at a3
  cases a3
  exact ⟨by rw [a1, b1], by rw [← a4, ← b4], by rw [← a5, ← b5]⟩

/-- the two clouds of the example, each alone: both runs reach the end, the first cloud ends with the two macroparticles it ends with in
the joint run -/
example : simExSt.cross = none ∧ (∃ r, simulate (simExCfg 5) [simExStep false, simExStep true] simExSt = .ok r) ∧
    ∃ r, simulate ((simExCfg 5).solo 0) ([simExStep false, simExStep true].map (fun inp => inp.solo 0))
      (simExSt.solo 0 ⟨0, 1, simCloud⟩) = .ok r ∧ r.clouds.map (fun c : XCloud ℚ => (c.mps.nmp, c.mps.ref)) = [(2, 61 / 2)] :=
  ⟨rfl, simEx_run_regen.imp fun _ h => h.1, exists_ok (by decide +kernel)⟩

/-- hypotheses of `C144_others`: the same simulation with the second cloud replaced by an empty one -/
example : ∃ r, simulate (simExCfg 5) [simExStep false, simExStep true]
    { simExSt with clouds := [⟨0, 1, simCloud⟩, ⟨1, 2, { simCloud with nmp := 0 }⟩] } = .ok r ∧
    r.clouds.map (fun c : XCloud ℚ => (c.mps.nmp, c.mps.ref)) ≠ [(2, 61 / 2), (2, 4)] ∧
    (r.clouds[0]?).map (fun c : XCloud ℚ => (c.mps.nmp, c.mps.ref)) = some (2, 61 / 2) := exists_ok (by decide +kernel)

end PyECLOUD
