import Verif.Model.FullRun
import Verif.Spec.FullRun
import Verif.Lemmas.SimStep
import Verif.Lemmas.SaverSteps

/-! # The counters of the cross ionisation do not influence a run -/

set_option linter.unusedSectionVars false

namespace PyECLOUD

variable {K : Type} [Field K] [LinearOrder K] [FloorRing K]

/-- larger counters -/
def XState.add (x : XState K) (a : ℕ → K × K × K) : XState K :=
  { x with nelC := fun nm => x.nelC nm + (a nm).1, nmpC := fun nm => x.nmpC nm + (a nm).2.1, dnC := fun nm => x.dnC nm + (a nm).2.2 }

def SimSt.addCross (st : SimSt K) (a : ℕ → K × K × K) : SimSt K := { st with cross := st.cross.map (fun x => x.add a) }

theorem update_add (f b : ℕ → K) (nm : ℕ) (v : K) :
    Function.update (fun m => f m + b m) nm (f nm + b nm + v) = fun m => Function.update f nm (f nm + v) m + b m := by
  funext m
  by_cases h : m = nm
  · subst h
    simp only [Function.update_self]
    ring
  · simp only [Function.update_of_ne h]

theorem accProds_add (info : ℕ → NewMPs K) (dn : K) (l : List ℕ) (acc : ℕ → NewMPs K) (f b : ℕ → K) :
    accProds info dn l (acc, fun m => f m + b m) =
      ((accProds info dn l (acc, f)).1, fun m => (accProds info dn l (acc, f)).2 m + b m) := by
  induction l generalizing acc f with
  | nil => rfl
  | cons nm l ih =>
    simp only [accProds]
    rw [update_add f b nm dn, ih]

theorem procLoop_add (sq lg : K → K) (qe dt : K) (cs : List (XCloud K)) (mass : K) (proj : List (Particle K))
    (d : ℕ → XDraws K) (l : List (Proc K)) (k : ℕ) (acc : ℕ → NewMPs K) (f b : ℕ → K) :
    procLoop sq lg qe dt cs mass proj d l k (acc, fun m => f m + b m) =
      (procLoop sq lg qe dt cs mass proj d l k (acc, f)).map (fun r => (r.1, r.2.1, fun m => r.2.2 m + b m)) := by
  induction l generalizing k acc f with
  | nil => rfl
  | cons pr l ih =>
    simp only [procLoop]
    split
    · rfl
    · next pr' info dn h =>
      rw [accProds_add, ih]
      cases procLoop sq lg qe dt cs mass proj d l (k + 1) (accProds info dn pr.products (acc, f)) <;> rfl

theorem projLoop_add (sq lg : K → K) (qe dt : K) (cs : List (XCloud K)) (d : ℕ → ℕ → XDraws K)
    (l : List (ℕ × List (Proc K))) (j : ℕ) (acc : ℕ → NewMPs K) (f b : ℕ → K) :
    projLoop sq lg qe dt cs d l j (acc, fun m => f m + b m) =
      (projLoop sq lg qe dt cs d l j (acc, f)).map (fun r => (r.1, r.2.1, fun m => r.2.2 m + b m)) := by
  induction l generalizing j acc f with
  | nil => rfl
  | cons q l ih =>
    simp only [projLoop]
    split
    · rfl
    · next c h =>
      split
      · rw [procLoop_add]
        cases procLoop sq lg qe dt cs c.mass c.mps.live (d j) q.2 0 (acc, f) with
        | error e => rfl
        | ok r =>
          obtain ⟨ps, a1, a2⟩ := r
          simp only [Except.map]
          rw [ih]
          cases projLoop sq lg qe dt cs d l (j + 1) (a1, a2) <;> rfl
      · rw [ih]
        cases projLoop sq lg qe dt cs d l (j + 1) (acc, f) <;> rfl

theorem addLoop_add (prods : List ℕ) (acc : ℕ → NewMPs K) (cs : List (XCloud K)) (f g b e : ℕ → K) :
    addLoop prods acc cs (fun m => f m + b m) (fun m => g m + e m) =
      (addLoop prods acc cs f g).map (fun r => (r.1, (fun m => r.2.1 m + b m), (fun m => r.2.2 m + e m))) := by
  induction cs generalizing f g with
  | nil => rfl
  | cons c cs ih =>
    simp only [addLoop]
    split
    · split
      · rfl
      · next m h =>
        rw [update_add f b, update_add g e, ih]
        cases addLoop prods acc cs (Function.update f c.name (f c.name + ((acc c.name).arr .nel).sum))
          (Function.update g c.name (g c.name + ((acc c.name).n : K))) <;> rfl
    · rw [ih]
      cases addLoop prods acc cs f g <;> rfl

theorem generate_add (x : XState K) (a : ℕ → K × K × K) (sq lg : K → K) (qe dt : K) (cs : List (XCloud K)) (d : ℕ → ℕ → XDraws K) :
    (x.add a).generate sq lg qe dt cs d = (x.generate sq lg qe dt cs d).map (fun r => (r.1.add a, r.2)) := by
  unfold XState.generate
  have e1 : projLoop sq lg qe dt cs d (x.add a).projs 0 (fun _ => .empty, (x.add a).dnC) =
      (projLoop sq lg qe dt cs d x.projs 0 (fun _ => .empty, x.dnC)).map (fun r => (r.1, r.2.1, fun m => r.2.2 m + (a m).2.2)) :=
    projLoop_add sq lg qe dt cs d x.projs 0 _ x.dnC (fun m => (a m).2.2)
  rw [e1]
  cases projLoop sq lg qe dt cs d x.projs 0 (fun _ => .empty, x.dnC) with
  | error e => rfl
  | ok r =>
    obtain ⟨p, acc, dnC⟩ := r
    simp only [Except.map]
    have e2 : addLoop (x.add a).prods acc cs (x.add a).nelC (x.add a).nmpC =
        (addLoop x.prods acc cs x.nelC x.nmpC).map (fun r => (r.1, (fun m => r.2.1 m + (a m).1), (fun m => r.2.2 m + (a m).2.1))) :=
      addLoop_add x.prods acc cs x.nelC x.nmpC (fun m => (a m).1) (fun m => (a m).2.1)
    rw [e2]
    cases addLoop x.prods acc cs x.nelC x.nmpC <;> rfl

theorem onCloud_add (st : SimSt K) (a : ℕ → K × K × K) (i : ℕ) (f : MPs K → Except PyErr (MPs K)) :
    (st.addCross a).onCloud i f = (st.onCloud i f).map (fun s => s.addCross a) := by
  unfold SimSt.onCloud
  change (match st.clouds[i]? with | none => _ | some c => _) = _
  cases st.clouds[i]? with
  | none => rfl
  | some c =>
    simp only
    cases f c.mps <;> rfl

theorem apply_add (S : SimCfg K) (st : SimSt K) (a : ℕ → K × K × K) (op : SimOp K) :
    op.apply S (st.addCross a) = (op.apply S st).map (fun s => s.addCross a) := by
  cases op with
  | track i step sey tt =>
    simp only [SimOp.apply, SimSt.track]
    change (match st.clouds[i]? with | none => _ | some c => _) = _
    cases st.clouds[i]? with
    | none => rfl
    | some c =>
      simp only
      change (match impactStep S.sq (S.imp i) S.ch sey (c.mps.push step) c.mps.positions tt (st.hists i) with
        | .error e => _ | .ok (m, h, n) => _) = _
      cases impactStep S.sq (S.imp i) S.ch sey (c.mps.push step) c.mps.positions tt (st.hists i) <;> rfl
  | gas i lam dt sx sy xb yb d => exact onCloud_add st a i _
  | rays i lam dt u vel ends =>
    simp only [SimOp.apply]
    split
    · exact onCloud_add st a i _
    · rfl
  | segs i lam dt u vel seg r0 rounds =>
    simp only [SimOp.apply]
    split
    · exact onCloud_add st a i _
    · rfl
  | cross dt d =>
    simp only [SimOp.apply]
    cases hx : st.cross with
    | none =>
      have : (st.addCross a).cross = none := by simp [SimSt.addCross, hx]
      rw [this]
      rfl
    | some x =>
      have : (st.addCross a).cross = some (x.add a) := by simp [SimSt.addCross, hx]
      rw [this]
      simp only
      have hcl : (st.addCross a).clouds = st.clouds := rfl
      rw [hcl, generate_add]
      cases x.generate S.sq S.lg S.qe dt st.clouds d <;> rfl
  | maintain i newPass skipClean skipRegen d rs ra =>
    simp only [SimOp.apply]
    exact onCloud_add st a i _

theorem simRun_add (S : SimCfg K) (ops : List (SimOp K)) (st : SimSt K) (a : ℕ → K × K × K) :
    simRun S ops (st.addCross a) = (simRun S ops st).map (fun s => s.addCross a) := by
  induction ops generalizing st with
  | nil => rfl
  | cons op ops ih =>
    simp only [simRun]
    rw [apply_add]
    cases op.apply S st with
    | error e => rfl
    | ok s => exact ih s

theorem saveOne_add (hc : ℕ → Option (HistCfg K)) (inp : StepIn K) (w : ℕ → WitIn K) (i : ℕ) (s : SimSt K) (v : ℕ → HistSav K)
    (a : ℕ → K × K × K) :
    saveOne hc inp w i ⟨s.addCross a, v⟩ = (saveOne hc inp w i ⟨s, v⟩).map (fun o => ⟨o.sim.addCross a, o.sav⟩) := by
  unfold saveOne
  cases hc i with
  | none => rfl
  | some c =>
    simp only
    change (match s.clouds[i]? with | none => _ | some cl => _) = _
    cases s.clouds[i]? with
    | none => rfl
    | some cl =>
      simp only
      change (match HistSav.witness c (v i) (s.hists i) { w i with tt := inp.tt, newPass := inp.newPass, cnt := s.cnt i, cloud := cl.mps } with
        | .error e => _ | .ok r => _) = _
      cases HistSav.witness c (v i) (s.hists i) { w i with tt := inp.tt, newPass := inp.newPass, cnt := s.cnt i, cloud := cl.mps } <;> rfl

/-- emptying the counters of one cloud takes away what they hold -/
theorem crossSaved_add (s : SimSt K) (nm : ℕ) (a : ℕ → K × K × K) :
    (s.crossSaved nm).addCross (fun m => if m = nm then a m + crossRow s.cross nm else a m) = s.addCross a := by
  unfold SimSt.crossSaved SimSt.addCross
  cases hx : s.cross with
  | none => simp
  | some x =>
    simp only [Option.map_some]
    congr 2
    unfold XState.add XState.save crossRow
    congr 1 <;> funext m <;> by_cases h : m = nm <;> simp [h, XState.save] <;> ring

end PyECLOUD
