import Verif.Model.Timing
import Mathlib.Algebra.BigOperators.Fin
import Mathlib.Data.List.OfFn

/-!
# Build-up simulated by several processes

`space_charge.comm` (space_charge_class.py:138, 176-202): when it is set to an MPI communicator, the charge
density is averaged over the processes each time the field is solved. Every process runs its own
`BuildupSimulation` with its own clouds (testing/parallel_buildup/simulation_check.py). Modelled: the buffers of
the collective calls, the loop over the clouds of a process with the averaging, and the interleaving of the
processes: each process runs by itself and meets the others only in `Gather` and `Bcast`. The MPI library is
external; messages between two processes arrive in the order of sending and are not lost. A process that has
given its density to `Gather` does nothing before it has received the result of `Bcast`, so whether `Gather`
returns early (buffered send) or late (synchronous send) on the other processes is not observable and the two
calls are one wait here. Processes are `Fin (n + 1)`, the root is process 0 (line 185, "assumes root is 0"), the grid has
`L` nodes on every process (the density is a function on the nodes).
-/

namespace PyECLOUD

section buffers
variable {K : Type} [Field K]

/-- `recvbuf` on the root after `comm.Gather(sendbuf, recvbuf)` (space_charge_class.py:185-187): the flattened densities one
after the other, in the order of the processes. -/
def gatherBuf {n L : ℕ} (send : Fin (n + 1) → Fin L → K) : List K :=
  (List.ofFn fun r => List.ofFn (send r)).flatten

/-- `np.mean(recvbuf.reshape(n_sims, len(sendbuf)), axis=0)` (space_charge_class.py:189-192): row `i`, column `j` of the reshaped
buffer is entry `i * len + j`. -/
def meanAxis0 (nSims len : ℕ) (recv : List K) : List K :=
  (List.range len).map fun j => ((List.range nSims).map fun i => recv.getD (i * len + j) 0).sum / (nSims : K)

/-- The density every process receives from `comm.Bcast(avgrho)` (space_charge_class.py:187-197), reshaped to the grid. -/
def averaged {n L : ℕ} (send : Fin (n + 1) → Fin L → K) : Fin L → K :=
  fun j => (meanAxis0 (n + 1) L (gatherBuf send)).getD j 0

end buffers

section clouds
variable {G : Type} [AddCommGroup G]

/-- One iteration of the loop over the clouds of a process, cloud `i` of `n`, with the averaging
(buildup_simulation.py:261-288, space_charge_class.py:175-199): `avg` stands for what the collective calls return
for the density of this process; it is applied only when `flag_solve`. -/
def rhoCloudStepPar (n : ℕ) (avg : G → G) (s : RhoSt G) (i : ℕ) (dep : G) : RhoSt G :=
  let flagReset := decide (i = 0)
  let flagSolve := decide (i + 1 = n)
  let scattered := cond flagReset dep (s.rho + dep)
  let rho := cond flagSolve (avg scattered) scattered
  { rho := rho
    cloudRho := s.cloudRho ++ [rho - (s.cloudRho.take i).sum]
    solved := cond flagSolve (s.solved ++ [rho]) s.solved }

/-- the loop over the clouds -/
def rhoRoundPar (n : ℕ) (avg : G → G) : ℕ → List G → RhoSt G → RhoSt G
  | _, [], s => s
  | i, d :: l, s => rhoRoundPar n avg (i + 1) l (rhoCloudStepPar n avg s i d)

/-- The density of the solver when `flag_solve` is reached, before the averaging (`sendbuf`,
space_charge_class.py:177, 185): the first cloud resets it, the others add. -/
def roundSend : List G → G
  | [] => 0
  | d :: l => l.foldl (· + ·) d

end clouds

section system
variable {K : Type} [Field K] {n L : ℕ}

/-- State of one process: its clouds and everything else it simulates (`A`), and its space-charge object. -/
structure MpiRank (A F K : Type) (L : ℕ) where
  own : A
  rho : Fin L → K
  cloudRho : List (Fin L → K)
  field : F

/-- What the processes run: `move r k` is the part of time step `k` on process `r` before the field is recomputed
(buildup_simulation.py:179-214: motion, impacts, new particles), `after r k` the part after it (221-225: saving, cleaning,
regeneration); both read the field of the process and do not change it. `deps` gives the depositions of its clouds
(PyPIC `scatter`), `solve` the field of a density (PyPIC `solve`, the same grid and chamber on all processes). -/
structure MpiProg (A F K : Type) (n L : ℕ) where
  move : Fin (n + 1) → ℕ → MpiRank A F K L → A
  after : Fin (n + 1) → ℕ → MpiRank A F K L → A
  deps : Fin (n + 1) → A → List (Fin L → K)
  solve : (Fin L → K) → F

variable {A F : Type}

/-- first part of a time step -/
def MpiProg.pre (P : MpiProg A F K n L) (r : Fin (n + 1)) (k : ℕ) (s : MpiRank A F K L) : MpiRank A F K L :=
  { s with own := P.move r k s }

/-- last part of a time step -/
def MpiProg.post (P : MpiProg A F K n L) (r : Fin (n + 1)) (k : ℕ) (s : MpiRank A F K L) : MpiRank A F K L :=
  { s with own := P.after r k s }

/-- `sendbuf` of a process (space_charge_class.py:185) -/
def MpiProg.send (P : MpiProg A F K n L) (r : Fin (n + 1)) (s : MpiRank A F K L) : Fin L → K :=
  roundSend (P.deps r s.own)

/-- The recomputation on a process to which the collective calls return `g` (buildup_simulation.py:261-288,
space_charge_class.py:175-199). -/
def MpiProg.recompute (P : MpiProg A F K n L) (r : Fin (n + 1)) (s : MpiRank A F K L) (g : Fin L → K) :
    MpiRank A F K L :=
  let deps := P.deps r s.own
  let e := rhoRoundPar deps.length (fun _ => g) 0 deps ⟨s.rho, [], []⟩
  { s with rho := e.rho, cloudRho := e.cloudRho, field := P.solve (e.solved.getLastD e.rho) }

/-- A process in the course of the run: completed time steps, the remaining ones (whether the field is recomputed at
them), and whether it is inside the collective calls. -/
structure MpiProc (A F K : Type) (L : ℕ) where
  st : MpiRank A F K L
  steps : ℕ
  todo : List Bool
  waiting : Bool

/-- All processes, the messages on the way to the root and those on the way back. -/
structure MpiSys (A F K : Type) (n L : ℕ) where
  proc : Fin (n + 1) → MpiProc A F K L
  up : Fin (n + 1) → List (Fin L → K)
  down : Fin (n + 1) → List (Fin L → K)

/-- Something happens in one of the processes, or in the root's part of the collective calls. Any process may be
the next to act. -/
inductive MpiStep (P : MpiProg A F K n L) : MpiSys A F K n L → MpiSys A F K n L → Prop
  /-- a time step without recomputation (condition at buildup_simulation.py:266-268 false) -/
  | alone (s : MpiSys A F K n L) (r : Fin (n + 1)) (st : MpiRank A F K L) (k : ℕ) (l : List Bool) :
      s.proc r = ⟨st, k, false :: l, false⟩ →
      MpiStep P s { s with proc := Function.update s.proc r ⟨P.post r k (P.pre r k st), k + 1, l, false⟩ }
  /-- a process reaches `Gather` (space_charge_class.py:185-187) -/
  | enter (s : MpiSys A F K n L) (r : Fin (n + 1)) (st : MpiRank A F K L) (k : ℕ) (l : List Bool) :
      s.proc r = ⟨st, k, true :: l, false⟩ →
      MpiStep P s { s with
        proc := Function.update s.proc r ⟨P.pre r k st, k, true :: l, true⟩
        up := Function.update s.up r (s.up r ++ [P.send r (P.pre r k st)]) }
  /-- the root has a density of every process (its own included), averages and sends (lines 189-196) -/
  | root (s : MpiSys A F K n L) (g : Fin (n + 1) → Fin L → K) (rest : Fin (n + 1) → List (Fin L → K)) :
      (∀ r, s.up r = g r :: rest r) →
      MpiStep P s { s with up := rest, down := fun r => s.down r ++ [averaged g] }
  /-- a process receives the average, solves and ends its time step (lines 196-199) -/
  | leave (s : MpiSys A F K n L) (r : Fin (n + 1)) (st : MpiRank A F K L) (k : ℕ) (l : List Bool)
      (g : Fin L → K) (rest : List (Fin L → K)) :
      s.proc r = ⟨st, k, true :: l, true⟩ → s.down r = g :: rest →
      MpiStep P s { s with
        proc := Function.update s.proc r ⟨P.post r k (P.recompute r st g), k + 1, l, false⟩
        down := Function.update s.down r rest }

/-- The processes at the start: no message on the way, each with its own steps (`scRun`, Model/Timing: computed from the
times, `Dt_sc` and `t_sc_ON` of that process). -/
def mpiStart (s0 : Fin (n + 1) → MpiRank A F K L) (dec : Fin (n + 1) → List Bool) : MpiSys A F K n L :=
  { proc := fun r => ⟨s0 r, 0, dec r, false⟩, up := fun _ => [], down := fun _ => [] }

/-- A process has done all its steps. -/
def MpiProc.finished (p : MpiProc A F K L) : Prop := p.todo = [] ∧ p.waiting = false

/-- A single simulation without communicator (`comm is None`, space_charge_class.py:181, 199): one time step. -/
def MpiProg.aloneStep (P : MpiProg A F K n L) (r : Fin (n + 1)) (k : ℕ) (d : Bool) (s : MpiRank A F K L) :
    MpiRank A F K L :=
  let m := P.pre r k s
  match d with
  | false => P.post r k m
  | true =>
    let deps := P.deps r m.own
    let e := rhoRound deps.length 0 deps ⟨m.rho, [], []⟩
    P.post r k { m with rho := e.rho, cloudRho := e.cloudRho, field := P.solve (e.solved.getLastD e.rho) }

/-- all its time steps, from step `k` on -/
def MpiProg.aloneRun (P : MpiProg A F K n L) (r : Fin (n + 1)) : ℕ → List Bool → MpiRank A F K L → MpiRank A F K L
  | _, [], s => s
  | k, d :: l, s => P.aloneRun r (k + 1) l (P.aloneStep r k d s)

end system

end PyECLOUD
