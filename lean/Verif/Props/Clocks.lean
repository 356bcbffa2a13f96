import Verif.Model.Clocks
import Verif.Lemmas.Np

/-!
# Recording schedules after a restart: C154
-/

set_option linter.unusedSectionVars false

namespace PyECLOUD

variable {K : Type} [Field K] [LinearOrder K] [IsStrictOrderedRing K]

theorem run_append' (c : ClockCfg K) (s : Clocks K) (a b : List (TickIn K)) :
    (s.run c (a ++ b)).1 = (s.run c a).1 ++ ((s.run c a).2.run c b).1 ∧ (s.run c (a ++ b)).2 = ((s.run c a).2.run c b).2 := by
  induction a generalizing s with
  | nil => exact ⟨rfl, rfl⟩
  | cons e a ih =>
    simp only [List.cons_append, Clocks.run]
    rw [(ih _).1, (ih _).2]
    simp

/-- what is recorded of one kind -/
def kindOf (p : Recd → Bool) (l : List (K × Recd)) : List (K × Recd) := l.filter (fun x => p x.2)

theorem tickSnap_frame (c : ClockCfg K) (s : Clocks K) (e : TickIn K) :
    (tickSnap c s e).2.en = s.en ∧ (tickSnap c s e).2.life = s.life ∧ (tickSnap c s e).2.save = s.save ∧ (tickSnap c s e).2.sim = s.sim ∧ (tickSnap c s e).2.iCk = s.iCk ∧ (tickSnap c s e).2.tCk = s.tCk := by
  unfold tickSnap
  repeat' split
  all_goals simp

theorem tickSim_frame (c : ClockCfg K) (s : Clocks K) (e : TickIn K) :
    (tickSim c s e).2.en = s.en ∧ (tickSim c s e).2.life = s.life ∧ (tickSim c s e).2.save = s.save ∧ (tickSim c s e).2.obs = s.obs ∧ (tickSim c s e).2.iCk = s.iCk ∧ (tickSim c s e).2.tCk = s.tCk := by
  unfold tickSim
  repeat' split
  all_goals simp

theorem tickEn_frame (c : ClockCfg K) (s : Clocks K) (e : TickIn K) :
    (tickEn c s e).2.life = s.life ∧ (tickEn c s e).2.save = s.save ∧ (tickEn c s e).2.obs = s.obs ∧ (tickEn c s e).2.sim = s.sim ∧ (tickEn c s e).2.iCk = s.iCk ∧ (tickEn c s e).2.tCk = s.tCk := by
  unfold tickEn
  repeat' split
  all_goals simp

theorem tickLife_frame (c : ClockCfg K) (s : Clocks K) (e : TickIn K) :
    (tickLife c s e).2.en = s.en ∧ (tickLife c s e).2.save = s.save ∧ (tickLife c s e).2.obs = s.obs ∧ (tickLife c s e).2.sim = s.sim ∧ (tickLife c s e).2.iCk = s.iCk ∧ (tickLife c s e).2.tCk = s.tCk := by
  unfold tickLife
  repeat' split
  all_goals simp

theorem tickStep_frame (c : ClockCfg K) (s : Clocks K) (e : TickIn K) :
    (tickStep c s e).2.en = s.en ∧ (tickStep c s e).2.life = s.life ∧ (tickStep c s e).2.obs = s.obs ∧ (tickStep c s e).2.sim = s.sim ∧ (tickStep c s e).2.iCk = s.iCk ∧ (tickStep c s e).2.tCk = s.tCk := by
  unfold tickStep
  repeat' split
  all_goals simp

theorem tickCk_frame (c : ClockCfg K) (s : Clocks K) (e : TickIn K) :
    (tickCk c s e).2.en = s.en ∧ (tickCk c s e).2.life = s.life ∧ (tickCk c s e).2.save = s.save ∧ (tickCk c s e).2.obs = s.obs ∧ (tickCk c s e).2.sim = s.sim := by
  unfold tickCk
  repeat' split
  all_goals simp

/-- is it a checkpoint -/
def Recd.isCk : Recd → Bool
  | .ckpt _ => true
  | _ => false

theorem tickSnap_kinds (c : ClockCfg K) (s : Clocks K) (e : TickIn K) :
    (tickSnap c s e).1.filter (fun x => decide (x = .energy)) = [] ∧ (tickSnap c s e).1.filter Recd.isCk = [] := by
  unfold tickSnap
  repeat' split
  all_goals simp [Recd.isCk]

theorem tickSim_kinds (c : ClockCfg K) (s : Clocks K) (e : TickIn K) :
    (tickSim c s e).1.filter (fun x => decide (x = .energy)) = [] ∧ (tickSim c s e).1.filter Recd.isCk = [] := by
  unfold tickSim
  repeat' split
  all_goals simp [Recd.isCk]

theorem tickEn_kinds (c : ClockCfg K) (s : Clocks K) (e : TickIn K) :
    (tickEn c s e).1.filter (fun x => decide (x = .energy)) = (tickEn c s e).1 ∧ (tickEn c s e).1.filter Recd.isCk = [] := by
  unfold tickEn
  repeat' split
  all_goals simp [Recd.isCk]

theorem tickLife_kinds (c : ClockCfg K) (s : Clocks K) (e : TickIn K) :
    (tickLife c s e).1.filter (fun x => decide (x = .energy)) = [] ∧ (tickLife c s e).1.filter Recd.isCk = [] := by
  unfold tickLife
  repeat' split
  all_goals simp [Recd.isCk]

theorem tickStep_kinds (c : ClockCfg K) (s : Clocks K) (e : TickIn K) :
    (tickStep c s e).1.filter (fun x => decide (x = .energy)) = [] ∧ (tickStep c s e).1.filter Recd.isCk = [] := by
  unfold tickStep
  repeat' split
  all_goals simp [Recd.isCk]

theorem tickCk_kinds (c : ClockCfg K) (s : Clocks K) (e : TickIn K) :
    (tickCk c s e).1.filter (fun x => decide (x = .energy)) = [] ∧ (tickCk c s e).1.filter Recd.isCk = (tickCk c s e).1 := by
  unfold tickCk
  repeat' split
  all_goals simp [Recd.isCk]

theorem tick_en (c : ClockCfg K) (s : Clocks K) (e : TickIn K) :
    (s.tick c e).2.en = (if histDue e.tt s.en c.dtEn then e.tt else s.en) ∧
    (s.tick c e).1.filter (fun x => decide (x = .energy)) = if histDue e.tt s.en c.dtEn then [.energy] else [] := by
  have h1 := tickSnap_frame c s e
  have h2 := tickSim_frame c (tickSnap c s e).2 e
  have hen : (tickSim c (tickSnap c s e).2 e).2.en = s.en := by rw [h2.1, h1.1]
  simp only [Clocks.tick]
  rw [(tickCk_frame _ _ _).1, (tickStep_frame _ _ _).1, (tickLife_frame _ _ _).1]
  simp only [List.filter_append, (tickSnap_kinds _ _ _).1, (tickSim_kinds _ _ _).1, (tickEn_kinds _ _ _).1,
    (tickLife_kinds _ _ _).1, (tickStep_kinds _ _ _).1, (tickCk_kinds _ _ _).1, List.nil_append, List.append_nil]
  simp only [tickEn, hen]
  split <;> simp [hen]

/-- the checkpoint part, of the number and time of the last checkpoint only -/
def ckOf (c : ClockCfg K) (i : ℕ) (t : K) (e : TickIn K) : List Recd × ℕ × K :=
  match c.ck with
  | none => ([], i, t)
  | some dt => if e.newPass && decide (e.tt - t ≥ dt) then ([.ckpt i], i + 1, e.tt) else ([], i, t)

theorem tickCk_eq (c : ClockCfg K) (s : Clocks K) (e : TickIn K) :
    ((tickCk c s e).1, (tickCk c s e).2.iCk, (tickCk c s e).2.tCk) = ckOf c s.iCk s.tCk e := by
  unfold tickCk ckOf
  cases c.ck with
  | none => rfl
  | some dt =>
    dsimp only
    split <;> rfl

theorem tick_ck (c : ClockCfg K) (s : Clocks K) (e : TickIn K) :
    ((s.tick c e).1.filter Recd.isCk, (s.tick c e).2.iCk, (s.tick c e).2.tCk) = ckOf c s.iCk s.tCk e := by
  have h1 := tickSnap_frame c s e
  have h2 := tickSim_frame c (tickSnap c s e).2 e
  have h3 := tickEn_frame c (tickSim c (tickSnap c s e).2 e).2 e
  have h4 := tickLife_frame c (tickEn c (tickSim c (tickSnap c s e).2 e).2 e).2 e
  have h5 := tickStep_frame c (tickLife c (tickEn c (tickSim c (tickSnap c s e).2 e).2 e).2 e).2 e
  simp only [Clocks.tick]
  simp only [List.filter_append, (tickSnap_kinds _ _ _).2, (tickSim_kinds _ _ _).2, (tickEn_kinds _ _ _).2,
    (tickLife_kinds _ _ _).2, (tickStep_kinds _ _ _).2, (tickCk_kinds _ _ _).2, List.nil_append]
  rw [tickCk_eq]
  grind

/-- energy histograms depend on their own clock only -/
theorem run_en (c c' : ClockCfg K) (hd : c.dtEn = c'.dtEn) (l : List (TickIn K)) (s s' : Clocks K) (h : s.en = s'.en) :
    (s.run c l).2.en = (s'.run c' l).2.en ∧
    (s.run c l).1.filter (fun x => decide (x.2 = .energy)) = (s'.run c' l).1.filter (fun x => decide (x.2 = .energy)) := by
  induction l generalizing s s' with
  | nil => exact ⟨h, rfl⟩
  | cons e l ih =>
    obtain ⟨a1, a2⟩ := tick_en c s e
    obtain ⟨b1, b2⟩ := tick_en c' s' e
    have he : (s.tick c e).2.en = (s'.tick c' e).2.en := by rw [a1, b1, h, hd]
    obtain ⟨i1, i2⟩ := ih _ _ he
    refine ⟨i1, ?_⟩
    simp only [Clocks.run, List.filter_append, i2]
    congr 1
    have hf : ∀ r : List Recd, (r.map (fun x => (e.tt, x))).filter (fun x => decide (x.2 = .energy)) =
        (r.filter (fun x => decide (x = .energy))).map (fun x => (e.tt, x)) := by
      intro r
      rw [List.filter_map]
      rfl
    rw [hf, hf, a2, b2, h, hd]

theorem run_ck (c : ClockCfg K) (l : List (TickIn K)) (s s' : Clocks K) (h : s.iCk = s'.iCk) (ht : s.tCk = s'.tCk) :
    (s.run c l).2.iCk = (s'.run c l).2.iCk ∧ (s.run c l).2.tCk = (s'.run c l).2.tCk ∧
    (s.run c l).1.filter (fun x => x.2.isCk) = (s'.run c l).1.filter (fun x => x.2.isCk) := by
  induction l generalizing s s' with
  | nil => exact ⟨h, ht, rfl⟩
  | cons e l ih =>
    have a := tick_ck c s e
    have b := tick_ck c s' e
    rw [h, ht, ← b] at a
    simp only [Prod.mk.injEq] at a
    obtain ⟨i1, i2, i3⟩ := ih _ _ a.2.1 a.2.2
    refine ⟨i1, i2, ?_⟩
    simp only [Clocks.run, List.filter_append, i3]
    congr 1
    have hf : ∀ r : List Recd, (r.map (fun x => (e.tt, x))).filter (fun x => x.2.isCk) =
        (r.filter Recd.isCk).map (fun x => (e.tt, x)) := by
      intro r
      rw [List.filter_map]
      rfl
    rw [hf, hf, a.1]

/-- **C154** (partial): after a restart the energy histograms are recorded at the times at which the run that goes on records them,
for every cloud whose interval is that of the last cloud. Missing: clouds with another interval, see
`C154_violated_energy`. -/
theorem C154_energy_partial (c last : ClockCfg K) (hd : c.dtEn = last.dtEn) (pre rest : List (TickIn K)) :
    (restartedRecords c last pre rest).filter (fun x => decide (x.2 = .energy)) =
      (Clocks.start.run c (pre ++ rest)).1.filter (fun x => decide (x.2 = .energy)) := by
  unfold restartedRecords
  dsimp only
  rw [(run_append' c _ pre rest).1, List.filter_append, List.filter_append]
  congr 1
  exact (run_en c c rfl rest (Clocks.loaded _ _ _) _ (run_en c last hd pre Clocks.start Clocks.start rfl).1.symm).2

/-- **C154**: the checkpoints after a restart are those of the run that goes on, at the same times and with the same numbers,
provided all clouds have the same interval and a checkpoint was written before. -/
theorem C154_checkpoints (c : ClockCfg K) (pre rest : List (TickIn K)) (hck : 0 < (Clocks.start.run c pre).2.iCk) :
    (restartedRecords c c pre rest).filter (fun x => x.2.isCk) =
      (Clocks.start.run c (pre ++ rest)).1.filter (fun x => x.2.isCk) := by
  unfold restartedRecords
  dsimp only
  rw [(run_append' c _ pre rest).1, List.filter_append, List.filter_append]
  congr 1
  refine (run_ck c rest _ _ ?_ ?_).2.2
  swap; · rfl
  show _ - 1 + 1 = _
  omega

/-- **C154, the files of states.** A file with the state of the macroparticles is written only at a step with macroparticles, it is the
next one of the list, and its requested time has been reached; the same for the simulation states, which need no macroparticles. -/
theorem C154_files (c : ClockCfg K) (s : Clocks K) (e : TickIn K) (k : ℕ) :
    (.snap k ∈ (s.tick c e).1 ↔ k = s.obs ∧ e.nonEmpty = true ∧ ∃ t, c.obs[k]? = some t ∧ t ≤ e.tt) ∧
    (.simState k ∈ (s.tick c e).1 ↔ k = s.sim ∧ ∃ t, c.sim[k]? = some t ∧ t ≤ e.tt) := by
  have hsim : (tickSnap c s e).2.sim = s.sim := (tickSnap_frame c s e).2.2.2.1
  have o3 : ∀ s : Clocks K, .snap k ∉ (tickEn c s e).1 ∧ .simState k ∉ (tickEn c s e).1 := by
    intro s
    unfold tickEn
    split <;> simp
  have o4 : ∀ s : Clocks K, .snap k ∉ (tickLife c s e).1 ∧ .simState k ∉ (tickLife c s e).1 := by
    intro s
    unfold tickLife
    repeat' split
    all_goals simp
  have o5 : ∀ s : Clocks K, .snap k ∉ (tickStep c s e).1 ∧ .simState k ∉ (tickStep c s e).1 := by
    intro s
    unfold tickStep
    repeat' split
    all_goals simp
  have o6 : ∀ s : Clocks K, .snap k ∉ (tickCk c s e).1 ∧ .simState k ∉ (tickCk c s e).1 := by
    intro s
    unfold tickCk
    repeat' split
    all_goals simp
  have o2 : ∀ s : Clocks K, .snap k ∉ (tickSim c s e).1 := by
    intro s
    unfold tickSim
    repeat' split
    all_goals simp
  have o1 : .simState k ∉ (tickSnap c s e).1 := by
    unfold tickSnap
    repeat' split
    all_goals simp
  constructor
  · simp only [Clocks.tick, List.mem_append, o2, (o3 _).1, (o4 _).1, (o5 _).1, (o6 _).1, or_false]
    unfold tickSnap
    cases hc : c.obs[s.obs]? with
    | none =>
      simp only [List.not_mem_nil, false_iff]
      rintro ⟨rfl, -, t, ht, -⟩
      rw [hc] at ht
      cases ht
    | some t =>
      simp only
      split
      · next h =>
        simp only [Bool.and_eq_true, decide_eq_true_eq] at h
        simp only [List.mem_singleton, Recd.snap.injEq]
        constructor
        · rintro rfl
          exact ⟨rfl, h.1, t, hc, h.2⟩
        · exact fun h => h.1
      · next h =>
        simp only [List.not_mem_nil, false_iff]
        rintro ⟨rfl, hn, t', ht, hle⟩
        rw [hc] at ht
        cases ht
        exact h (by simp [hn, hle])
  · simp only [Clocks.tick, List.mem_append, o1, (o3 _).2, (o4 _).2, (o5 _).2, (o6 _).2, or_false, false_or]
    unfold tickSim
    rw [hsim]
    cases hc : c.sim[s.sim]? with
    | none =>
      simp only [List.not_mem_nil, false_iff]
      rintro ⟨rfl, t, ht, -⟩
      rw [hc] at ht
      cases ht
    | some t =>
      simp only
      split
      · next h =>
        simp only [List.mem_singleton, Recd.simState.injEq]
        constructor
        · rintro rfl
          exact ⟨rfl, t, hc, h⟩
        · exact fun h => h.1
      · next h =>
        simp only [List.not_mem_nil, false_iff]
        rintro ⟨rfl, t', ht, hle⟩
        rw [hc] at ht
        cases ht
        exact h hle

/-- **C154 fails for the step-by-step samples**: the first step after every restart is a sample, whenever the last one was. -/
theorem C154_violated_steps (c : ClockCfg K) (i : ℕ) (tt tEn : K) (e : TickIn K) (h : c.dtSave - 1 ≤ e.tt) :
    .step ∈ ((Clocks.loaded i tt tEn).tick c e).1 := by
  have h4 : (tickLife c (tickEn c (tickSim c (tickSnap c (Clocks.loaded i tt tEn) e).2 e).2 e).2 e).2.save = -1 := by
    rw [(tickLife_frame _ _ _).2.1, (tickEn_frame _ _ _).2.1, (tickSim_frame _ _ _).2.2.1, (tickSnap_frame _ _ _).2.2.1]
    rfl
  simp only [Clocks.tick, List.mem_append]
  left; right
  unfold tickStep
  rw [h4, if_pos (by linarith)]
  simp

/-- **C154 fails for the lifetime histograms**: the first step after every restart records one. -/
theorem C154_violated_life (c : ClockCfg K) (dt : K) (hc : c.dtLife = some dt) (i : ℕ) (tt tEn : K) (e : TickIn K)
    (h : dt - 1 ≤ e.tt) : .life ∈ ((Clocks.loaded i tt tEn).tick c e).1 := by
  have h3 : (tickEn c (tickSim c (tickSnap c (Clocks.loaded i tt tEn) e).2 e).2 e).2.life = -1 := by
    rw [(tickEn_frame _ _ _).1, (tickSim_frame _ _ _).2.1, (tickSnap_frame _ _ _).2.1]
    rfl
  simp only [Clocks.tick, List.mem_append]
  left; left; right
  unfold tickLife
  simp only [hc, h3]
  have : histDue e.tt (-1) dt = true := by
    unfold histDue
    rw [decide_eq_true (by linarith)]
    rfl
  rw [this]
  simp

/-- **C154 fails for the files of the macroparticle states**: after every restart that comes after the first requested time, the
first step with macroparticles writes the file number 0 again, with the state at another time. -/
theorem C154_violated_snap (c : ClockCfg K) (t0 : K) (l : List K) (hc : c.obs = t0 :: l) (i : ℕ) (tt tEn : K) (e : TickIn K)
    (hne : e.nonEmpty = true) (h : t0 ≤ e.tt) : .snap 0 ∈ ((Clocks.loaded i tt tEn).tick c e).1 := by
  simp only [Clocks.tick, List.mem_append]
  left; left; left; left; left
  unfold tickSnap
  have : (Clocks.loaded i tt tEn).obs = 0 := rfl
  rw [this, hc]
  simp [hne, h]

/-- **C154 fails for the files of the simulation states** in the same way. -/
theorem C154_violated_sim (c : ClockCfg K) (t0 : K) (l : List K) (hc : c.sim = t0 :: l) (i : ℕ) (tt tEn : K) (e : TickIn K)
    (h : t0 ≤ e.tt) : .simState 0 ∈ ((Clocks.loaded i tt tEn).tick c e).1 := by
  have h1 : (tickSnap c (Clocks.loaded i tt tEn) e).2.sim = 0 := by
    rw [(tickSnap_frame _ _ _).2.2.2.1]
    rfl
  simp only [Clocks.tick, List.mem_append]
  left; left; left; left; right
  unfold tickSim
  rw [h1, hc]
  simp [h]

/-- steps at 1, 2, …, a passage every second step -/
def clockSteps (a n : ℕ) : List (TickIn ℚ) := (List.range n).map (fun k => ⟨(a + k : ℕ), (a + k) % 2 = 0, true⟩)

def clockCfg : ClockCfg ℚ := ⟨3, some 4, 4, [1], [1], some 4⟩

/-- **C154 fails** (witness): a run of ten steps stopped at its first checkpoint, at 4. The run that goes on takes samples at
3 and 7, lifetime histograms at 3 and 7 and writes `MP_state_0` at 1; the restarted run takes samples at 3, 5 and 9, lifetime
histograms at 3, 5 and 9 and replaces `MP_state_0` by the state at 5. -/
theorem C154_violated :
    ((Clocks.start.run clockCfg (clockSteps 1 10)).1.filter (fun x => decide (x.2 = .step)) =
        [(3, .step), (7, .step)] ∧
      (Clocks.start.run clockCfg (clockSteps 1 10)).1.filter (fun x => decide (x.2 = .life)) = [(3, .life), (7, .life)] ∧
      (Clocks.start.run clockCfg (clockSteps 1 10)).1.filter (fun x => decide (x.2 = .snap 0)) = [(1, .snap 0)]) ∧
    ((restartedRecords clockCfg clockCfg (clockSteps 1 4) (clockSteps 5 6)).filter (fun x => decide (x.2 = .step)) =
        [(3, .step), (5, .step), (9, .step)] ∧
      (restartedRecords clockCfg clockCfg (clockSteps 1 4) (clockSteps 5 6)).filter (fun x => decide (x.2 = .life)) =
        [(3, .life), (5, .life), (9, .life)] ∧
      (restartedRecords clockCfg clockCfg (clockSteps 1 4) (clockSteps 5 6)).filter (fun x => decide (x.2 = .snap 0)) =
        [(1, .snap 0), (5, .snap 0)]) := by
  decide +kernel

/-- **C154 fails for the energy histograms of a cloud with its own interval** (witness): the time of the last histogram of the
last cloud is given to all. With intervals 6 and 3, stopped at 4, the histogram due at 5 comes at 8. -/
theorem C154_violated_energy :
    (Clocks.start.run { clockCfg with dtEn := 6 } (clockSteps 1 10)).1.filter (fun x => decide (x.2 = .energy)) = [(5, .energy)] ∧
    (restartedRecords { clockCfg with dtEn := 6 } clockCfg (clockSteps 1 4) (clockSteps 5 6)).filter
      (fun x => decide (x.2 = .energy)) = [(8, .energy)] := by
  decide +kernel

/-- the hypothesis of `C154_checkpoints` -/
example : 0 < (Clocks.start.run clockCfg (clockSteps 1 4)).2.iCk ∧ clockCfg.dtSave - 1 ≤ (5 : ℚ) := by decide +kernel

end PyECLOUD
