import Verif.Model.ImpCounter
import Verif.Spec.ImpCounter
import Verif.Props.SimStep

/-!
# The number of impacts in the output: C151
-/

set_option linter.unusedSectionVars false

namespace PyECLOUD

section

variable {K : Type} [Field K] [LinearOrder K] [IsStrictOrderedRing K] [FloorRing K]

theorem countTrue_mask (s : MPs K) (outside : K → K → Bool) :
    countTrue (s.impactMask outside) = s.live.countP (fun p => outside (p .x) (p .y)) := by
  unfold countTrue MPs.impactMask MPs.live
  rw [List.count_append, List.count_replicate]
  simp only [List.countP_map, List.count, Function.comp_def]
  simp [MPs.tracked]

theorem gas_ref (outside : K → K → Bool) (unifFrac xAper yAper kIon v0 lam dt sx sy xb yb : K)
    (d : GasDraws K) (s s' : MPs K)
    (hok : gasGenerate outside unifFrac xAper yAper kIon v0 lam dt sx sy xb yb d s = .ok s') : s'.ref = s.ref := by
  unfold gasGenerate at hok
  dsimp only at hok
  split at hok
  · split at hok
    · cases hok
    · exact (addNew_sameSizes _ _ _ _ hok).1.ref
  · cases hok
    rfl

/-- the other clouds are left alone -/
def Elsewhere (i : ℕ) (st st' : SimSt K) : Prop := ∀ j, j ≠ i → st'.clouds[j]? = st.clouds[j]?

theorem put_elsewhere (st : SimSt K) (i : ℕ) (m : MPs K) : Elsewhere i st (st.put i m) := by
  intro j hj
  rw [put_get, if_neg (Ne.symm hj)]

theorem track_elsewhere (S : SimCfg K) (st st' : SimSt K) (i : ℕ) (step : ℕ → Phase K → Phase K)
    (sey : K → List (Impact K) → Except PyErr (SeyOut K)) (tt : K) (h : st.track S i step sey tt = .ok st') :
    Elsewhere i st st' ∧ (st'.clouds[i]?).map (fun c => c.mps.ref) = (st.clouds[i]?).map (fun c => c.mps.ref) := by
  unfold SimSt.track at h
  split at h
  · cases h
  · rename_i c hc
    split at h
    · cases h
    · rename_i m hh n hi
      cases h
      refine ⟨put_elsewhere st i m, ?_⟩
      show ((st.put i m).clouds[i]?).map _ = _
      rw [put_get, if_pos rfl, hc]
      have h1 := (impactStep_sizes _ _ _ _ _ _ _ _ _ _ _ hi).ref
      have h2 := (push_sameSizes c.mps step).ref
      simp only [Option.map_some]
      rw [h1, h2]

theorem gas_elsewhere (S : SimCfg K) (st st' : SimSt K) (i : ℕ) (lam dt sx sy xb yb : K) (d : GasDraws K)
    (h : (SimOp.gas i lam dt sx sy xb yb d).apply S st = .ok st') :
    Elsewhere i st st' ∧ (st'.clouds[i]?).map (fun c => c.mps.ref) = (st.clouds[i]?).map (fun c => c.mps.ref) := by
  simp only [SimOp.apply] at h
  obtain ⟨c, m, hc, hm, rfl⟩ := onCloud_spec _ _ _ _ h
  refine ⟨put_elsewhere st i m, ?_⟩
  rw [put_get, if_pos rfl, hc]
  simp only [Option.map_some]
  rw [gas_ref _ _ _ _ _ _ _ _ _ _ _ _ _ _ _ hm]

theorem simRunN_append (S : SimCfg K) (a b : List (SimOp K)) (p q : SimSt K × ℕ) (h : simRunN S (a ++ b) p = .ok q) :
    ∃ r, simRunN S a p = .ok r ∧ simRunN S b r = .ok q := by
  induction a generalizing p with
  | nil => exact ⟨p, rfl, h⟩
  | cons op a ih =>
    simp only [List.cons_append, simRunN] at h ⊢
    cases ho : op.apply S p.1 with
    | error e => rw [ho] at h; cases h
    | ok st => rw [ho] at h; exact ih _ h

/-- several gas ionisations in a row -/
theorem gasAll_elsewhere (S : SimCfg K) (i : ℕ) (ops : List (SimOp K))
    (hops : ∀ op ∈ ops, ∃ lam dt sx sy xb yb d, op = SimOp.gas i lam dt sx sy xb yb d) (p q : SimSt K × ℕ)
    (h : simRunN S ops p = .ok q) : Elsewhere i p.1 q.1 ∧
      (q.1.clouds[i]?).map (fun c => c.mps.ref) = (p.1.clouds[i]?).map (fun c => c.mps.ref) ∧ q.2 = p.2 := by
  induction ops generalizing p with
  | nil => cases h; exact ⟨fun _ _ => rfl, rfl, rfl⟩
  | cons op l ih =>
    simp only [simRunN] at h
    cases ho : op.apply S p.1 with
    | error e => rw [ho] at h; cases h
    | ok st =>
      rw [ho] at h
      obtain ⟨lam, dt, sx, sy, xb, yb, d, rfl⟩ := hops op (by simp)
      obtain ⟨a1, a2⟩ := gas_elsewhere S _ _ i _ _ _ _ _ _ _ ho
      obtain ⟨b1, b2, b3⟩ := ih (fun o h => hops o (by simp [h])) _ h
      exact ⟨fun j hj => (b1 j hj).trans (a1 j hj), b2.trans a2, b3⟩

/-- motion and sources of one cloud -/
theorem block_counts (S : SimCfg K) (inp : StepIn K) (i : ℕ) (p q : SimSt K × ℕ)
    (h : simRunN S (SimOp.track i (inp.motion i) (inp.sey i) inp.tt :: inp.primaryOps S i) p = .ok q) :
    Elsewhere i p.1 q.1 ∧ q.2 = p.2 + (wallHits S inp p.1 i + photonHits S inp p.1 i) := by
  simp only [simRunN] at h
  cases ho : (SimOp.track i (inp.motion i) (inp.sey i) inp.tt).apply S p.1 with
  | error e => rw [ho] at h; cases h
  | ok st =>
    rw [ho] at h
    obtain ⟨a1, a2⟩ := track_elsewhere S _ _ _ _ _ _ ho
    have hw : (SimOp.track i (inp.motion i) (inp.sey i) inp.tt).searches S p.1 = wallHits S inp p.1 i := by
      simp only [SimOp.searches, wallHits]
      cases p.1.clouds[i]? with
      | none => rfl
      | some c => exact countTrue_mask _ _
    rw [hw] at h
    unfold StepIn.primaryOps at h
    obtain ⟨r, h1, h2⟩ := simRunN_append _ _ _ _ _ h
    obtain ⟨b1, b2, b3⟩ := gasAll_elsewhere S i _ (by
      intro op hop
      split at hop
      · obtain ⟨k, hk, rfl⟩ := List.mem_mapIdx.1 hop
        exact ⟨_, _, _, _, _, _, _, rfl⟩
      · simp at hop) _ _ h1
    have ab : Elsewhere i p.1 r.1 := fun j hj => (b1 j hj).trans (a1 j hj)
    have hr : (r.1.clouds[i]?).map (fun c => c.mps.ref) = (p.1.clouds[i]?).map (fun c => c.mps.ref) := b2.trans a2
    dsimp only at h2
    cases hp : S.photo i with
    | off =>
      rw [hp] at h2
      cases h2
      refine ⟨ab, ?_⟩
      rw [b3]
      simp [photonHits, hp]
    | rays kc mean =>
      rw [hp] at h2
      simp only [simRunN] at h2
      cases h3 : (SimOp.rays i (inp.main.lam + (inp.secs.map (fun b => b.lam)).sum) inp.dt (inp.phU i) (inp.phVel i)
          (inp.phEnds i)).apply S r.1 with
      | error e => rw [h3] at h2; cases h2
      | ok st2 =>
        rw [h3] at h2
        cases h2
        simp only [SimOp.apply, hp] at h3
        obtain ⟨c, m, hc, hm, rfl⟩ := onCloud_spec _ _ _ _ h3
        refine ⟨fun j hj => (put_elsewhere _ i m j hj).trans (ab j hj), ?_⟩
        dsimp only
        rw [b3]
        rw [hc] at hr
        cases hc0 : p.1.clouds[i]? with
        | none => rw [hc0] at hr; cases hr
        | some c0 =>
          rw [hc0] at hr
          have hrr : c.mps.ref = c0.mps.ref := by simpa using hr
          simp only [SimOp.searches, photonHits, hp, hc, hc0, hrr]
          omega
    | segs kc mean l cdf =>
      rw [hp] at h2
      simp only [simRunN] at h2
      cases h3 : (SimOp.segs i (inp.main.lam + (inp.secs.map (fun b => b.lam)).sum) inp.dt (inp.phU i) (inp.sgVel i)
          (inp.sgSeg i) (inp.sgR0 i) (inp.sgRounds i)).apply S r.1 with
      | error e => rw [h3] at h2; cases h2
      | ok st2 =>
        rw [h3] at h2
        cases h2
        simp only [SimOp.apply, hp] at h3
        obtain ⟨c, m, hc, hm, rfl⟩ := onCloud_spec _ _ _ _ h3
        refine ⟨fun j hj => (put_elsewhere _ i m j hj).trans (ab j hj), ?_⟩
        dsimp only
        rw [b3]
        simp [SimOp.searches, photonHits, hp]

theorem hits_congr (S : SimCfg K) (inp : StepIn K) (st st' : SimSt K) (i : ℕ) (h : st'.clouds[i]? = st.clouds[i]?) :
    wallHits S inp st' i + photonHits S inp st' i = wallHits S inp st i + photonHits S inp st i := by
  unfold wallHits photonHits
  rw [h]

theorem blocks_count (S : SimCfg K) (inp : StepIn K) (L : List ℕ) (hL : L.Nodup) (st0 : SimSt K) (p q : SimSt K × ℕ)
    (hp : ∀ i ∈ L, p.1.clouds[i]? = st0.clouds[i]?)
    (h : simRunN S (L.flatMap (fun i => SimOp.track i (inp.motion i) (inp.sey i) inp.tt :: inp.primaryOps S i)) p = .ok q) :
    q.2 = p.2 + (L.map (fun i => wallHits S inp st0 i + photonHits S inp st0 i)).sum := by
  induction L generalizing p with
  | nil => cases h; rfl
  | cons i L ih =>
    rw [List.flatMap_cons] at h
    obtain ⟨r, h1, h2⟩ := simRunN_append _ _ _ _ _ h
    obtain ⟨a1, a2⟩ := block_counts S inp i p r h1
    obtain ⟨n1, n2⟩ := List.nodup_cons.1 hL
    have := ih n2 r (fun j hj => by
      rw [a1 j (fun e => n1 (e ▸ hj))]
      exact hp j (by simp [hj])) h2
    rw [this, a2, hits_congr S inp st0 p.1 i (hp i (by simp)), List.map_cons, List.sum_cons, Nat.add_assoc]

theorem maintain_count (S : SimCfg K) (ops : List (SimOp K)) (hops : ∀ op ∈ ops, ∀ st, op.searches S st = 0)
    (p q : SimSt K × ℕ) (h : simRunN S ops p = .ok q) : q.2 = p.2 := by
  induction ops generalizing p with
  | nil => cases h; rfl
  | cons op l ih =>
    simp only [simRunN] at h
    cases ho : op.apply S p.1 with
    | error e => rw [ho] at h; cases h
    | ok st =>
      rw [ho] at h
      rw [ih (fun o h => hops o (by simp [h])) _ h]
      dsimp only
      rw [hops op (by simp), Nat.add_zero]

theorem simRunN_state (S : SimCfg K) (ops : List (SimOp K)) (p q : SimSt K × ℕ) (h : simRunN S ops p = .ok q) :
    simRun S ops p.1 = .ok q.1 := by
  induction ops generalizing p with
  | nil => cases h; rfl
  | cons op l ih =>
    simp only [simRunN] at h
    simp only [simRun]
    cases ho : op.apply S p.1 with
    | error e => rw [ho] at h; cases h
    | ok st => rw [ho] at h; exact ih _ h

/-- one time step -/
theorem step_count (S : SimCfg K) (inp : StepIn K) (p q : SimSt K × ℕ)
    (h : simRunN S (inp.ops S p.1.clouds.length) p = .ok q) : simTimeStep S inp p.1 = .ok q.1 ∧
      q.2 = p.2 + ((List.range p.1.clouds.length).map (fun i => wallHits S inp p.1 i + photonHits S inp p.1 i)).sum := by
  refine ⟨simRunN_state S _ _ _ h, ?_⟩
  unfold StepIn.ops at h
  obtain ⟨r2, h2, h3⟩ := simRunN_append _ _ _ _ _ h
  obtain ⟨r1, h1, h2⟩ := simRunN_append _ _ _ _ _ h2
  rw [maintain_count S _ (by
    intro op hop st
    obtain ⟨i, -, rfl⟩ := List.mem_map.1 hop
    rfl) _ _ h3, maintain_count S _ (by
    intro op hop st
    simp only [List.mem_singleton] at hop
    subst hop
    rfl) _ _ h2]
  exact blocks_count S inp _ List.nodup_range p.1 p r1 (fun _ _ => rfl) h1

/-- **C151**, what is recorded: with every cloud, at every passage, the number since the beginning of all the macroparticles of all
clouds that hit the wall and of all the photoelectrons generated from photon directions. -/
theorem C151_recorded (S : SimCfg K) (steps : List (StepIn K)) (st st' : SimSt K) (n n' : ℕ) (r : List ℕ)
    (h : countRun S steps (st, n) = .ok (r, (st', n'))) : simulate S steps st = .ok st' ∧
      ∃ inc : List ℕ, inc.length = steps.length ∧ r = atPassages n ((steps.map (fun i => i.newPass)).zip inc) ∧
        ∀ (k : ℕ) (inp : StepIn K), steps[k]? = some inp → ∃ stk, simulate S (steps.take k) st = .ok stk ∧
          inc[k]? = some ((List.range st.clouds.length).map
            (fun i => wallHits S inp stk i + photonHits S inp stk i)).sum := by
  induction steps generalizing st n r with
  | nil =>
    cases h
    exact ⟨rfl, [], rfl, rfl, by simp⟩
  | cons inp l ih =>
    simp only [countRun] at h
    cases h1 : simRunN S (inp.ops S st.clouds.length) (st, n) with
    | error e => rw [h1] at h; cases h
    | ok p =>
      rw [h1] at h
      obtain ⟨s1, s2⟩ := step_count S inp (st, n) p h1
      dsimp only at h s1 s2
      cases h2 : countRun S l p with
      | error e => rw [h2] at h; cases h
      | ok rq =>
        rw [h2] at h
        obtain ⟨r1, q⟩ := rq
        dsimp only at h
        cases h
        obtain ⟨i1, inc, i2, i3, i4⟩ := ih p.1 p.2 r1 h2
        have hlen : p.1.clouds.length = st.clouds.length := simRun_length S _ _ _ (simRunN_state S _ _ _ h1)
        refine ⟨by simp only [simulate, s1]; exact i1,
          ((List.range st.clouds.length).map (fun i => wallHits S inp st i + photonHits S inp st i)).sum :: inc,
          by simp [i2], ?_, ?_⟩
        · simp only [List.map_cons, List.zip_cons_cons, atPassages]
          rw [← s2, i3]
        · intro k inp' hk
          cases k with
          | zero =>
            simp only [List.getElem?_cons_zero, Option.some.injEq] at hk
            subst hk
            exact ⟨st, rfl, rfl⟩
          | succ k =>
            simp only [List.getElem?_cons_succ] at hk
            obtain ⟨stk, j1, j2⟩ := i4 k inp' hk
            refine ⟨stk, by simp only [List.take_succ_cons, simulate, s1]; exact j1, ?_⟩
            rw [hlen] at j2
            simpa using j2

/-- **C151** (partial): for a single cloud without photoemission from photon directions, the recorded numbers are those of the
macroparticles of the cloud that hit the wall since the beginning; the difference of two records is the number for the passages in
between. Missing: other clouds and photoelectrons are counted as well, see `C151_recorded` and `C151_violated`. -/
theorem C151_own_partial (S : SimCfg K) (hph : ∀ kc mean, S.photo 0 ≠ .rays kc mean) (steps : List (StepIn K))
    (st st' : SimSt K) (h1 : st.clouds.length = 1) (n' : ℕ) (r : List ℕ)
    (h : countRun S steps (st, 0) = .ok (r, (st', n'))) :
    ∃ inc : List ℕ, inc.length = steps.length ∧ r = atPassages 0 ((steps.map (fun i => i.newPass)).zip inc) ∧
      ∀ (k : ℕ) (inp : StepIn K), steps[k]? = some inp → ∃ stk, simulate S (steps.take k) st = .ok stk ∧
        inc[k]? = some (wallHits S inp stk 0) := by
  obtain ⟨-, inc, i1, i2, i3⟩ := C151_recorded S steps st st' 0 n' r h
  refine ⟨inc, i1, i2, fun k inp hk => ?_⟩
  obtain ⟨stk, j1, j2⟩ := i3 k inp hk
  refine ⟨stk, j1, ?_⟩
  rw [j2, h1]
  have : photonHits S inp stk 0 = 0 := by
    unfold photonHits
    split
    · rename_i kc mean c hp hc
      exact absurd hp (hph kc mean)
    · rfl
  simp [this]

end

/-- **C151 fails** (witness): in a step in which a macroparticle of the first cloud hits the wall and none of the second, 1 is
recorded with the second cloud as well. -/
theorem C151_violated : ∃ (S : SimCfg ℚ) (inp : StepIn ℚ) (st st' : SimSt ℚ) (n' : ℕ), S.Ok ∧ inp.Ok S ∧
    (∀ c ∈ st.clouds, CloudOk S.ch c.mps) ∧ st.clouds.length = 2 ∧ countRun S [inp] (st, 0) = .ok ([1], (st', n')) ∧
    wallHits S inp st 0 = 1 ∧ wallHits S inp st 1 = 0 ∧ photonHits S inp st 0 = 0 ∧ photonHits S inp st 1 = 0 := by
  obtain ⟨r, h1, h2⟩ := exists_ok (p := fun r => r.1 = [1])
    (r := countRun (simExCfg 100) [simExStep true] (simExSt, 0)) (by decide +kernel)
  exact ⟨simExCfg 100, simExStep true, simExSt, r.2.1, r.2.2, simExCfg_ok 100, simExStep_ok 100 true, simExSt_ok, rfl,
    by rw [h1, ← h2], by decide +kernel, by decide +kernel, rfl, rfl⟩

/-- four photoelectrons per step from photon directions -/
def rayExCfg : SimCfg ℚ := { simExCfg 100 with photo := fun _ => .rays 1 none, gas := fun _ => ⟨false, 0, 0, 0, 0, 0, 0⟩ }

/-- **C151 fails** also for a single cloud: photoelectrons generated from photon directions are counted without hitting the wall. -/
theorem C151_violated_photo : ∃ (S : SimCfg ℚ) (inp : StepIn ℚ) (st st' : SimSt ℚ) (n n' : ℕ), st.clouds.length = 1 ∧
    countRun S [inp] (st, 0) = .ok ([n], (st', n')) ∧ wallHits S inp st 0 = 1 ∧ 1 < n := by
  obtain ⟨r, h1, h2⟩ := exists_ok (p := fun r => r.1 = [5])
    (r := countRun rayExCfg [simExStep true] ({ simExSt with clouds := [⟨0, 1, simCloud⟩] }, 0)) (by decide +kernel)
  exact ⟨rayExCfg, simExStep true, { simExSt with clouds := [⟨0, 1, simCloud⟩] }, r.2.1, 5, r.2.2, rfl,
    by rw [h1, ← h2], by decide +kernel, by decide⟩

/-- a run of one cloud over two passages in which the hypotheses of `C151_own_partial` hold; the second step brings more hits -/
example : (∀ kc mean, (simExCfg 100).photo 0 ≠ .rays kc mean) ∧ ∃ r : List ℕ × (SimSt ℚ × ℕ),
    countRun (simExCfg 100) [simExStep true, simExStep true] ({ simExSt with clouds := [⟨0, 1, simCloud⟩] }, 0) = .ok r ∧
      r.1.length = 2 ∧ 1 ≤ r.1.headD 0 :=
  ⟨by simp [simExCfg], exists_ok (by decide +kernel)⟩

end PyECLOUD
