import Verif.Lemmas.Parallel
import Verif.Model.BeamField
import Verif.Lemmas.Timing
import Mathlib.Algebra.Module.BigOperators
import Mathlib.Algebra.Module.LinearMap.Basic

/-! # Properties of the parallel build-up (C111, C112, C113) -/

set_option linter.unusedSectionVars false

namespace PyECLOUD

section
variable {K : Type} [Field K] {n L : ℕ} {A F : Type}

/-- **C111, result.** Processes with settings (`Dt_sc`, `t_sc_ON`, times) that ask for the same recomputations, in
any order of events: a process that has done `k` steps and is not inside the collective calls is in the state of the
processes doing all steps together. -/
theorem C111_result [LinearOrder K] (P : MpiProg A F K n L) (s0 : Fin (n + 1) → MpiRank A F K L)
    (dtSc : Fin (n + 1) → Option K) (tScOn : Fin (n + 1) → K) (times : Fin (n + 1) → List (K × Bool))
    (dec : List Bool) (hdec : ∀ r, scRun (dtSc r) (tScOn r) 0 (times r) = dec) (s : MpiSys A F K n L)
    (hs : MpiReach P (mpiStart s0 fun r => scRun (dtSc r) (tScOn r) 0 (times r)) s) (r : Fin (n + 1)) :
    ((s.proc r).waiting = false → (s.proc r).st = together P s0 dec (s.proc r).steps r) ∧
    ((s.proc r).finished → (s.proc r).st = together P s0 dec dec.length r) := by
  obtain ⟨R, hR⟩ := mpiInv_reach P s0 dec _ _ (mpiInv_start P s0 dec _ hdec) hs
  obtain ⟨k, e1, e2, e3, e4⟩ := hR r
  have h1 : (s.proc r).waiting = false → (s.proc r).st = together P s0 dec (s.proc r).steps r := by
    intro hw
    rcases e4 with ⟨_, e5, _⟩ | ⟨e5, _⟩ | ⟨e5, _⟩
    · rw [e1]; exact e5
    · rw [hw] at e5; exact absurd e5 (by simp)
    · rw [hw] at e5; exact absurd e5 (by simp)
  refine ⟨h1, ?_⟩
  rintro ⟨hf1, hf2⟩
  rw [h1 hf2, e1]
  rw [hf1] at e3
  have := List.drop_eq_nil_iff.1 e3.symm
  have hk : k = dec.length := by omega
  rw [hk]

/-- **C111, no deadlock.** Under the same conditions something can always happen until all processes have finished,
all of them can finish, whatever happened before, and no execution has more than `(n + 1) * (4 N + 2)` events for `N`
time steps. -/
theorem C111_completes [LinearOrder K] (P : MpiProg A F K n L) (s0 : Fin (n + 1) → MpiRank A F K L)
    (dtSc : Fin (n + 1) → Option K) (tScOn : Fin (n + 1) → K) (times : Fin (n + 1) → List (K × Bool))
    (dec : List Bool) (hdec : ∀ r, scRun (dtSc r) (tScOn r) 0 (times r) = dec) (s : MpiSys A F K n L) (m : ℕ)
    (hs : MpiExec P m (mpiStart s0 fun r => scRun (dtSc r) (tScOn r) 0 (times r)) s) :
    ((∀ r, (s.proc r).finished) ∨ ∃ s', MpiStep P s s') ∧
    (∃ s', MpiReach P s s' ∧ ∀ r, (s'.proc r).finished) ∧
    m ≤ (n + 1) * (4 * dec.length + 2) := by
  have hi := mpiInv_reach P s0 dec _ _ (mpiInv_start P s0 dec _ hdec) hs.reach
  refine ⟨?_, mpi_finish P s0 dec _ s le_rfl hi, ?_⟩
  · by_cases hf : ∀ r, (s.proc r).finished
    · exact Or.inl hf
    · exact Or.inr (mpi_progress P s0 dec s hi hf)
  · have h1 := mpiExec_bound P hs
    rw [mpiWork_start s0 dec _ hdec] at h1
    omega

/-- **C111, order does not matter.** Two executions that both reach the end give every process the same state. -/
theorem C111_order [LinearOrder K] (P : MpiProg A F K n L) (s0 : Fin (n + 1) → MpiRank A F K L)
    (dtSc : Fin (n + 1) → Option K) (tScOn : Fin (n + 1) → K) (times : Fin (n + 1) → List (K × Bool))
    (dec : List Bool) (hdec : ∀ r, scRun (dtSc r) (tScOn r) 0 (times r) = dec) (s s' : MpiSys A F K n L)
    (hs : MpiReach P (mpiStart s0 fun r => scRun (dtSc r) (tScOn r) 0 (times r)) s)
    (hs' : MpiReach P (mpiStart s0 fun r => scRun (dtSc r) (tScOn r) 0 (times r)) s')
    (hf : ∀ r, (s.proc r).finished) (hf' : ∀ r, (s'.proc r).finished) (r : Fin (n + 1)) :
    (s.proc r).st = (s'.proc r).st := by
  rw [(C111_result P s0 dtSc tScOn times dec hdec s hs r).2 (hf r),
    (C111_result P s0 dtSc tScOn times dec hdec s' hs' r).2 (hf' r)]

theorem aloneStep_eq {P : MpiProg A F K 0 L} (hne : ∀ r a, P.deps r a ≠ []) (k : ℕ) (d : Bool)
    (s : Fin 1 → MpiRank A F K L) : togetherStep P k d s 0 = P.aloneStep 0 k d (s 0) := by
  cases d with
  | false => rfl
  | true =>
    have hm : meanDensity P (fun r => { s r with own := P.move r k (s r) }) = (P.deps 0 (P.pre 0 k (s 0)).own).sum := by
      funext j; simp [meanDensity, MpiProg.pre]
    simp only [togetherStep, MpiProg.aloneStep, cond_true, MpiProg.recompute]
    rw [hm, ← rhoRoundPar_id, rhoRoundPar_full _ _ (hne _ _), rhoRoundPar_full _ _ (hne _ _)]
    rfl

/-- **C111, one process.** A communicator with one process changes nothing: whatever the order of events, the
finished process is in the state of the same simulation without communicator. (Every simulation has a cloud.) -/
theorem C111_one_process [LinearOrder K] (P : MpiProg A F K 0 L) (hne : ∀ r a, P.deps r a ≠ [])
    (s0 : Fin 1 → MpiRank A F K L) (dtSc : Option K) (tScOn : K) (times : List (K × Bool)) (s : MpiSys A F K 0 L)
    (hs : MpiReach P (mpiStart s0 fun _ => scRun dtSc tScOn 0 times) s) (hf : (s.proc 0).finished) :
    (s.proc 0).st = P.aloneRun 0 0 (scRun dtSc tScOn 0 times) (s0 0) := by
  rw [(C111_result P s0 (fun _ => dtSc) (fun _ => tScOn) (fun _ => times) _ (fun _ => rfl) s hs 0).2 hf]
  generalize scRun dtSc tScOn 0 times = dec
  have key : ∀ (l pre : List Bool), dec = pre ++ l →
      together P s0 dec dec.length 0 = P.aloneRun 0 pre.length l (together P s0 dec pre.length 0) := by
    intro l
    induction l with
    | nil => intro pre hp; simp [hp, MpiProg.aloneRun]
    | cons d l ih =>
      intro pre hp
      rw [ih (pre ++ [d]) (by simp [hp])]
      have hd : dec.getD pre.length false = d := by simp [hp]
      simp only [List.length_append, List.length_cons, List.length_nil, MpiProg.aloneRun]
      congr 1
      rw [together, hd]
      exact aloneStep_eq hne pre.length d _
  exact key dec [] rfl

/-- **C112, the averaged density.** What the root computes from the gathered buffer is at every node the sum of the
densities of the processes over their number. -/
theorem C112_mean (send : Fin (n + 1) → Fin L → K) (j : Fin L) :
    averaged send j = (∑ r, send r j) / ((n + 1 : ℕ) : K) := averaged_eq send j

/-- **C112, common field.** At a step at which the field is recomputed all processes get the same density, the mean of
the densities of all clouds of all processes, and its field; at the other steps density and field stay. -/
theorem C112_field (P : MpiProg A F K n L) (hne : ∀ r a, P.deps r a ≠ []) (s0 : Fin (n + 1) → MpiRank A F K L)
    (dec : List Bool) (k : ℕ) (r : Fin (n + 1)) :
    let before : Fin (n + 1) → MpiRank A F K L :=
      fun q => { together P s0 dec k q with own := P.move q k (together P s0 dec k q) }
    let mean : Fin L → K := fun j => (∑ q, (P.deps q (before q).own).sum j) / ((n + 1 : ℕ) : K)
    (dec[k]? = some true →
      (together P s0 dec (k + 1) r).rho = mean ∧ (together P s0 dec (k + 1) r).field = P.solve mean) ∧
    (dec[k]? ≠ some true →
      (together P s0 dec (k + 1) r).rho = (together P s0 dec k r).rho ∧
      (together P s0 dec (k + 1) r).field = (together P s0 dec k r).field) := by
  intro before mean
  constructor
  · intro h
    rw [together_succ_true P s0 dec k h]
    simp only [MpiProg.post, MpiProg.recompute]
    rw [rhoRoundPar_full _ _ (hne _ _)]
    exact ⟨rfl, rfl⟩
  · intro h
    have hd : dec.getD k false = false := by
      rw [List.getD_eq_getElem?_getD]
      cases hk : dec[k]? with
      | none => rfl
      | some b => cases b with
        | false => rfl
        | true => exact absurd hk h
    rw [together, hd]
    exact ⟨rfl, rfl⟩

/-- **C112, at any time.** If the processes start with the same field, all have the same field after every number of
steps. -/
theorem C112_same_field (P : MpiProg A F K n L) (hne : ∀ r a, P.deps r a ≠ []) (s0 : Fin (n + 1) → MpiRank A F K L)
    (dec : List Bool) (h0 : ∀ r q, (s0 r).field = (s0 q).field) (k : ℕ) (r q : Fin (n + 1)) :
    (together P s0 dec k r).field = (together P s0 dec k q).field := by
  induction k with
  | zero => exact h0 r q
  | succ k ih =>
    by_cases h : dec[k]? = some true
    · rw [((C112_field P hne s0 dec k r).1 h).2, ((C112_field P hne s0 dec k q).1 h).2]
    · rw [((C112_field P hne s0 dec k r).2 h).2, ((C112_field P hne s0 dec k q).2 h).2, ih]

/-- **C112, linear solver.** When the field depends linearly on the density, the common field is the mean of the
fields of the densities of the single processes. -/
theorem C112_mean_field {V : Type} [AddCommGroup V] [Module K V] (P : MpiProg A V K n L)
    (hne : ∀ r a, P.deps r a ≠ []) (T : (Fin L → K) →ₗ[K] V) (hT : P.solve = T)
    (s0 : Fin (n + 1) → MpiRank A V K L) (dec : List Bool) (k : ℕ) (h : dec[k]? = some true) (r : Fin (n + 1)) :
    (together P s0 dec (k + 1) r).field
      = ((n + 1 : ℕ) : K)⁻¹ • ∑ q, P.solve ((P.deps q (P.move q k (together P s0 dec k q))).sum) := by
  rw [((C112_field P hne s0 dec k r).1 h).2, hT, ← map_sum, ← map_smul]
  congr 1
  funext j
  simp [div_eq_inv_mul, Finset.sum_apply]

/-- **C113, partial.** After a recomputation in which the collective calls return the density `g`, the density stored for
every cloud but the last is the one of its own particles, and the stored densities add up to `g`. Missing: the density of
the last cloud (violated below). -/
theorem C113_cloud_densities_partial {G : Type} [AddCommGroup G] (g : G) (deps : List G) (last : G) (rho : G)
    (solved : List G) :
    let e := rhoRoundPar (deps ++ [last]).length (fun _ => g) 0 (deps ++ [last]) ⟨rho, [], solved⟩
    e.cloudRho.take deps.length = deps ∧ e.cloudRho.sum = g ∧ e.rho = g ∧ e.solved = solved ++ [g] ∧
    (e.cloudRho = deps ++ [last] ↔ g = (deps ++ [last]).sum) := by
  intro e
  have he : e = ⟨g, deps ++ [g - deps.sum], solved ++ [g]⟩ := by
    have := rhoRoundPar_full (fun _ => g) (deps ++ [last]) (by simp) rho solved
    rw [show e = _ from this]
    simp
  rw [he]
  refine ⟨by simp, by simp, rfl, rfl, ?_⟩
  simp only [List.append_cancel_left_eq, List.cons.injEq, and_true, List.sum_append, List.sum_cons, List.sum_nil, add_zero]
  constructor
  · intro h; rw [← h]; abel
  · intro h; rw [h]; abel

/-- **C113, violated.** Two processes with an electron and an ion cloud each. After the recomputation the density stored
for the ion cloud of process 0 is not the one of its ions (1): the difference between the mean and the own total
electron density goes to the last cloud (it becomes 4). -/
theorem C113_last_cloud_violated :
    let P : MpiProg ℚ Unit ℚ 1 1 :=
      { move := fun _ _ s => s.own, after := fun _ _ s => s.own
        deps := fun _ a => [fun _ => -a, fun _ => 1], solve := fun _ => () }
    let s0 : Fin 2 → MpiRank ℚ Unit ℚ 1 := fun r => ⟨if r = 0 then 8 else 2, fun _ => 0, [], ()⟩
    (((together P s0 [true] 1 0).cloudRho.map fun d => d 0) = [-8, 4]) ∧
    (((P.deps 0 (together P s0 [true] 1 0).own).map fun d => d 0) = [-8, 1]) := by
  refine ⟨by decide +kernel, by decide +kernel⟩

/-- **C112, violated with electromagnetic tracking.** `recompute_spchg_emfield` does not use the communicator: the field
of a process is the one of its own clouds only, so two processes with different clouds have different fields. -/
theorem C112_electromagnetic_violated :
    let round (ds : List (EmDep ℚ)) : EmSt ℚ ℚ := emRound id ds.length 0 ds ⟨⟨0, 0⟩, ⟨0, 0⟩, ⟨0, 0⟩, none, none⟩
    (round [⟨8, 0, 0⟩]).pic.phi = 8 ∧ (round [⟨2, 0, 0⟩]).pic.phi = 2 := by
  refine ⟨by decide +kernel, by decide +kernel⟩

end

section deadlock

/-- two processes whose clouds never change -/
def stillProg : MpiProg ℚ ℚ ℚ 1 1 :=
  { move := fun _ _ s => s.own, after := fun _ _ s => s.own, deps := fun _ a => [fun _ => a], solve := fun d => d 0 }

def stillStart : Fin 2 → MpiRank ℚ ℚ ℚ 1 := fun r => ⟨if r = 0 then 8 else 2, fun _ => 0, [], 0⟩

/-- **C111, violated for unequal settings.** Nothing checks that the processes have the same `Dt_sc`: with one time step
at which process 0 (no decimation) recomputes the field and process 1 (`Dt_sc = 10`) does not, a state is reached in which
process 1 has finished, process 0 has not, and nothing can happen any more. -/
theorem C111_unequal_settings_violated :
    ∃ s, MpiReach stillProg (mpiStart stillStart fun r => scRun (if r = 0 then none else some (10 : ℚ)) 0 0 [(1, false)]) s ∧
      (s.proc 1).finished ∧ ¬ (s.proc 0).finished ∧ ∀ s', ¬ MpiStep stillProg s s' := by
  have d0 : scRun (if (0 : Fin 2) = 0 then none else some (10 : ℚ)) 0 0 [(1, false)] = [true] := by decide +kernel
  have d1 : scRun (if (1 : Fin 2) = 0 then none else some (10 : ℚ)) 0 0 [(1, false)] = [false] := by decide +kernel
  set a := mpiStart stillStart fun r => scRun (if r = 0 then none else some (10 : ℚ)) 0 0 [(1, false)] with ha
  have p0 : a.proc 0 = ⟨stillStart 0, 0, [true], false⟩ := by
    show MpiProc.mk _ _ (scRun _ _ _ _) _ = _
    rw [d0]
  have p1 : a.proc 1 = ⟨stillStart 1, 0, [false], false⟩ := by
    show MpiProc.mk _ _ (scRun _ _ _ _) _ = _
    rw [d1]
  have hu : a.up = fun _ => [] := rfl
  have hdn : a.down = fun _ => [] := rfl
  have s1 := MpiStep.enter (P := stillProg) a 0 _ _ _ p0
  set b : MpiSys ℚ ℚ ℚ 1 1 := { a with
        proc := Function.update a.proc 0 ⟨stillProg.pre 0 0 (stillStart 0), 0, true :: [], true⟩
        up := Function.update a.up 0 (a.up 0 ++ [stillProg.send 0 (stillProg.pre 0 0 (stillStart 0))]) } with hb
  have q0 : b.proc 0 = ⟨stillProg.pre 0 0 (stillStart 0), 0, [true], true⟩ := by simp [hb]
  have q1 : b.proc 1 = ⟨stillStart 1, 0, [false], false⟩ := by simp [hb, p1]
  have s2 := MpiStep.alone (P := stillProg) b 1 _ _ _ q1
  refine ⟨_, (Relation.ReflTransGen.refl.tail s1).tail s2, ?_, ?_, ?_⟩
  · simp [MpiProc.finished]
  · simp [MpiProc.finished, q0]
  · have hall : ∀ r : Fin 2, r = 0 ∨ r = 1 := by decide
    intro s' hs
    cases hs with
    | alone r st k l hp => rcases hall r with rfl | rfl <;> simp [q0] at hp
    | enter r st k l hp => rcases hall r with rfl | rfl <;> simp [q0] at hp
    | root g rest hup =>
      have := hup 1
      simp [hb, hu] at this
    | leave r st k l g rest hp hd =>
      simp [hb, hdn] at hd

/-- the hypotheses of C111 for a concrete case: two processes with the same settings and three steps -/
example : ∀ r : Fin 2, scRun ((fun _ : Fin 2 => some (2 : ℚ)) r) ((fun _ => 0) r) 0
    ((fun _ => [((1 : ℚ), false), (2, false), (3, true)]) r) = [false, true, true] := by decide +kernel

/-- and a different `t_sc_ON` that asks for the same recomputations -/
example : ∀ r : Fin 2, scRun (some (2 : ℚ)) (if r = 0 then 0 else 1) 0 [(1, false), (2, false), (3, true)]
    = [false, true, true] := by decide +kernel

/-- both processes get the field of the mean 5 of 8 and 2 -/
example : (together stillProg stillStart [false, true, true] 2 0).field = 5 ∧
    (together stillProg stillStart [false, true, true] 2 1).field = 5 ∧
    (together stillProg stillStart [false, true, true] 1 1).field = 0 := by
  refine ⟨by decide +kernel, by decide +kernel, by decide +kernel⟩

example : ∀ r a, stillProg.deps r a ≠ [] := by intro r a; simp [stillProg]

/-- a state reached by letting process 1 run ahead: it waits, process 0 has not started -/
example : ∃ s, MpiReach stillProg (mpiStart stillStart fun _ => [false, true]) s ∧ (s.proc 1).waiting = true ∧
    (s.proc 1).steps = 1 ∧ (s.proc 0).steps = 0 := by
  have s1 := MpiStep.alone (P := stillProg) (mpiStart stillStart fun _ => [false, true]) 1 _ _ _ rfl
  set b : MpiSys ℚ ℚ ℚ 1 1 := { mpiStart stillStart fun _ => [false, true] with
        proc := Function.update (mpiStart stillStart fun _ => [false, true]).proc 1
          ⟨stillProg.post 1 0 (stillProg.pre 1 0 (stillStart 1)), 0 + 1, [true], false⟩ } with hb
  have s2 := MpiStep.enter (P := stillProg) b 1 (stillProg.post 1 0 (stillProg.pre 1 0 (stillStart 1))) 1 [] (by simp [hb])
  refine ⟨_, (Relation.ReflTransGen.refl.tail s1).tail s2, ?_, ?_, ?_⟩
  · simp
  · simp
  · simp [hb, mpiStart]

/-- the linear solver of C112_mean_field: the value at the node -/
example : stillProg.solve = (LinearMap.proj 0 : (Fin 1 → ℚ) →ₗ[ℚ] ℚ) := rfl

example : (rhoRoundPar 3 (fun _ => (10 : ℤ)) 0 [5, -2, 7] ⟨100, [], []⟩).cloudRho = [5, -2, 7] := by decide

example : (rhoRoundPar 3 (fun _ => (12 : ℤ)) 0 [5, -2, 7] ⟨100, [], []⟩).cloudRho = [5, -2, 9] := by decide

end deadlock

end PyECLOUD
