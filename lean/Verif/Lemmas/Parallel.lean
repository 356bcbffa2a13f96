import Verif.Spec.Parallel
import Mathlib.Algebra.Order.BigOperators.Group.Finset
import Mathlib.Tactic.Ring
import Mathlib.Tactic.Abel

/-! Helper lemmas for the parallel build-up. -/

set_option linter.unusedSectionVars false

namespace PyECLOUD

section buffers
variable {K : Type} [Field K]

theorem flatten_uniform_getD (L : ℕ) (ls : List (List K)) (h : ∀ l ∈ ls, l.length = L) (i j : ℕ) (hi : i < ls.length)
    (hj : j < L) : ls.flatten.getD (i * L + j) 0 = (ls[i]).getD j 0 := by
  induction ls generalizing i with
  | nil => simp at hi
  | cons a l ih =>
    have ha : a.length = L := h a (by simp)
    cases i with
    | zero =>
      simp only [Nat.zero_mul, Nat.zero_add, List.flatten_cons, List.getElem_cons_zero]
      rw [List.getD_eq_getElem?_getD, List.getElem?_append_left (by omega), List.getD_eq_getElem?_getD]
    | succ i =>
      simp only [List.flatten_cons, List.getElem_cons_succ]
      have e : (i + 1) * L + j = L + (i * L + j) := by ring
      rw [List.getD_eq_getElem?_getD, List.getElem?_append_right (by rw [e]; omega), ha, e, Nat.add_sub_cancel_left,
        ← List.getD_eq_getElem?_getD]
      exact ih (fun l' hl' => h l' (by simp [hl'])) i (by simpa using hi)

theorem averaged_eq {n L : ℕ} (send : Fin (n + 1) → Fin L → K) (j : Fin L) :
    averaged send j = (∑ r, send r j) / ((n + 1 : ℕ) : K) := by
  unfold averaged meanAxis0
  have hj : ((List.range L).map fun j => ((List.range (n + 1)).map fun i => (gatherBuf send).getD (i * L + j) 0).sum
      / ((n + 1 : ℕ) : K)).getD (j : ℕ) 0
      = ((List.range (n + 1)).map fun i => (gatherBuf send).getD (i * L + (j : ℕ)) 0).sum / ((n + 1 : ℕ) : K) := by
    rw [List.getD_eq_getElem?_getD, List.getElem?_map, List.getElem?_range j.2]
    rfl
  rw [hj]
  congr 1
  have e : (List.range (n + 1)).map (fun i => (gatherBuf send).getD (i * L + (j : ℕ)) 0)
      = List.ofFn (fun r : Fin (n + 1) => send r j) := by
    apply List.ext_getElem
    · simp
    · intro i h1 h2
      have hi : i < n + 1 := by simpa using h1
      simp only [List.getElem_map, List.getElem_range, List.getElem_ofFn]
      unfold gatherBuf
      rw [flatten_uniform_getD L _ (by simp) i j (by simpa using hi) j.2, List.getElem_ofFn,
        List.getD_eq_getElem?_getD, List.getElem?_ofFn]
      simp
  rw [e, List.sum_ofFn]

end buffers

section clouds
variable {G : Type} [AddCommGroup G]

theorem foldl_add_sum (d : G) (l : List G) : l.foldl (· + ·) d = d + l.sum := by
  induction l generalizing d with
  | nil => simp
  | cons a l ih => simp [ih, add_assoc]

theorem roundSend_sum (l : List G) : roundSend l = l.sum := by
  cases l with
  | nil => rfl
  | cons d l => simp [roundSend, foldl_add_sum]

theorem rhoRoundPar_spec (n : ℕ) (avg : G → G) (l pre : List G) (s : RhoSt G) (hl : l ≠ [])
    (hn : n = pre.length + l.length) (hc : s.cloudRho = pre) (hr : pre ≠ [] → s.rho = pre.sum) :
    rhoRoundPar n avg pre.length l s =
      ⟨avg (pre ++ l).sum, (pre ++ l).dropLast ++ [avg (pre ++ l).sum - (pre ++ l).dropLast.sum],
        s.solved ++ [avg (pre ++ l).sum]⟩ := by
  induction l generalizing pre s with
  | nil => exact absurd rfl hl
  | cons d l ih =>
    have hsc : (cond (decide (pre.length = 0)) d (s.rho + d)) = pre.sum + d := by
      by_cases hp : pre = []
      · subst hp; simp
      · rw [hr hp]; simp [hp]
    by_cases hl' : l = []
    · subst hl'
      have hs : decide (pre.length + 1 = n) = true := by simp [hn]
      have ht : s.cloudRho.take pre.length = pre := by rw [hc]; simp
      simp only [rhoRoundPar, rhoCloudStepPar]
      rw [hsc, hs, ht, hc]
      simp [List.dropLast_append_of_ne_nil]
    · have hs : decide (pre.length + 1 = n) = false := by
        have : l.length ≠ 0 := by simpa using hl'
        simp only [List.length_cons] at hn
        exact decide_eq_false (by omega)
      have ht : s.cloudRho.take pre.length = pre := by rw [hc]; simp
      have key : rhoCloudStepPar n avg s pre.length d = ⟨pre.sum + d, pre ++ [d], s.solved⟩ := by
        simp only [rhoCloudStepPar]
        rw [hsc, hs, ht, hc]
        simp
      have := ih (pre ++ [d]) ⟨pre.sum + d, pre ++ [d], s.solved⟩ hl'
        (by simp only [List.length_append, List.length_cons, List.length_nil] at hn ⊢; omega) rfl (by intro _; simp)
      simp only [rhoRoundPar]
      rw [key]
      simpa using this

theorem rhoRoundPar_full (avg : G → G) (deps : List G) (h : deps ≠ []) (rho : G) (solved : List G) :
    rhoRoundPar deps.length avg 0 deps ⟨rho, [], solved⟩ =
      ⟨avg deps.sum, deps.dropLast ++ [avg deps.sum - deps.dropLast.sum], solved ++ [avg deps.sum]⟩ := by
  simpa using rhoRoundPar_spec deps.length avg deps [] ⟨rho, [], solved⟩ h (by simp) rfl (by simp)

theorem rhoRoundPar_id (n : ℕ) (l : List G) (i : ℕ) (s : RhoSt G) : rhoRoundPar n id i l s = rhoRound n i l s := by
  induction l generalizing i s with
  | nil => rfl
  | cons d l ih =>
    simp only [rhoRoundPar, rhoRound]
    rw [ih]
    congr 1
    simp only [rhoCloudStepPar, rhoCloudStep, id, Bool.cond_self]

end clouds

section system
variable {K : Type} [Field K] {n L : ℕ} {A F : Type}

theorem averaged_send (P : MpiProg A F K n L) (s : Fin (n + 1) → MpiRank A F K L) :
    averaged (fun r => P.send r (s r)) = meanDensity P s := by
  funext j
  rw [averaged_eq]
  unfold meanDensity MpiProg.send
  simp only [roundSend_sum]

/-- number of recomputations in the first `k` steps -/
def doneCol (dec : List Bool) (k : ℕ) : ℕ := (dec.take k).count true

theorem doneCol_succ (dec : List Bool) (k : ℕ) (b : Bool) (h : dec[k]? = some b) :
    doneCol dec (k + 1) = doneCol dec k + (if b then 1 else 0) := by
  unfold doneCol
  rw [List.take_add_one, h]
  cases b <;> simp

theorem doneCol_mono (dec : List Bool) {j k : ℕ} (h : j ≤ k) : doneCol dec j ≤ doneCol dec k :=
  List.Sublist.count_le _ (List.take_sublist_take_left h)

theorem doneCol_lt (dec : List Bool) {j k : ℕ} (h : j < k) (hj : dec[j]? = some true) : doneCol dec j < doneCol dec k := by
  have := doneCol_succ dec j true hj
  have := doneCol_mono dec (show j + 1 ≤ k from h)
  simp at *
  omega

theorem doneCol_inj (dec : List Bool) {j k : ℕ} (hj : dec[j]? = some true) (hk : dec[k]? = some true)
    (h : doneCol dec j = doneCol dec k) : j = k := by
  rcases lt_trichotomy j k with a | a | a
  · have := doneCol_lt dec a hj; omega
  · exact a
  · have := doneCol_lt dec a hk; omega

theorem drop_cons_get {dec l : List Bool} {k : ℕ} {b : Bool} (h : b :: l = dec.drop k) :
    dec[k]? = some b ∧ l = dec.drop (k + 1) := by
  have h0 : (dec.drop k)[0]? = some b := by rw [← h]; rfl
  refine ⟨by simpa using h0, ?_⟩
  have : (dec.drop k).tail = l := by rw [← h]; rfl
  rw [← this, List.tail_drop]

/-- Situation of process `r` when the root has answered `R` times. -/
def MpiLocal (P : MpiProg A F K n L) (s0 : Fin (n + 1) → MpiRank A F K L) (dec : List Bool) (R : ℕ)
    (s : MpiSys A F K n L) (r : Fin (n + 1)) : Prop :=
  ∃ k, (s.proc r).steps = k ∧ k ≤ dec.length ∧ (s.proc r).todo = dec.drop k ∧
    (((s.proc r).waiting = false ∧ (s.proc r).st = together P s0 dec k r ∧ doneCol dec k = R ∧
        s.up r = [] ∧ s.down r = []) ∨
      ((s.proc r).waiting = true ∧ dec[k]? = some true ∧ (s.proc r).st = P.pre r k (together P s0 dec k r) ∧
        doneCol dec k = R ∧ s.up r = [P.send r (P.pre r k (together P s0 dec k r))] ∧ s.down r = []) ∨
      ((s.proc r).waiting = true ∧ dec[k]? = some true ∧ (s.proc r).st = P.pre r k (together P s0 dec k r) ∧
        doneCol dec k + 1 = R ∧ s.up r = [] ∧
        s.down r = [meanDensity P (fun q => P.pre q k (together P s0 dec k q))]))

def MpiInv (P : MpiProg A F K n L) (s0 : Fin (n + 1) → MpiRank A F K L) (dec : List Bool) (s : MpiSys A F K n L) : Prop :=
  ∃ R, ∀ r, MpiLocal P s0 dec R s r

theorem mpiInv_start (P : MpiProg A F K n L) (s0 : Fin (n + 1) → MpiRank A F K L) (dec : List Bool)
    (d : Fin (n + 1) → List Bool) (hd : ∀ r, d r = dec) : MpiInv P s0 dec (mpiStart s0 d) :=
  ⟨0, fun r => ⟨0, rfl, Nat.zero_le _, by simp [mpiStart, hd], Or.inl ⟨rfl, rfl, rfl, rfl, rfl⟩⟩⟩

theorem together_succ_false (P : MpiProg A F K n L) (s0 : Fin (n + 1) → MpiRank A F K L) (dec : List Bool) (k : ℕ)
    (h : dec[k]? = some false) (r : Fin (n + 1)) :
    together P s0 dec (k + 1) r = P.post r k (P.pre r k (together P s0 dec k r)) := by
  simp [together, togetherStep, MpiProg.pre, MpiProg.post, h]

theorem together_succ_true (P : MpiProg A F K n L) (s0 : Fin (n + 1) → MpiRank A F K L) (dec : List Bool) (k : ℕ)
    (h : dec[k]? = some true) (r : Fin (n + 1)) :
    together P s0 dec (k + 1) r = P.post r k (P.recompute r (P.pre r k (together P s0 dec k r))
      (meanDensity P (fun q => P.pre q k (together P s0 dec k q)))) := by
  simp [together, togetherStep, MpiProg.pre, MpiProg.post, h]

theorem mpiInv_step (P : MpiProg A F K n L) (s0 : Fin (n + 1) → MpiRank A F K L) (dec : List Bool)
    (s s' : MpiSys A F K n L) (h : MpiInv P s0 dec s) (hs : MpiStep P s s') : MpiInv P s0 dec s' := by
  obtain ⟨R, hR⟩ := h
  cases hs with
  | alone r st k l hp =>
    refine ⟨R, fun q => ?_⟩
    by_cases hq : q = r
    · subst hq
      obtain ⟨k', e1, e2, e3, e4⟩ := hR q
      simp only [hp] at e1 e3 e4
      subst e1
      obtain ⟨g1, g2⟩ := drop_cons_get e3
      rcases e4 with ⟨_, e5, e6, e7, e8⟩ | ⟨e5, _⟩ | ⟨e5, _⟩
      · have hlt : k < dec.length := by
          by_contra hc
          rw [List.getElem?_eq_none (by omega)] at g1
          exact absurd g1 (by simp)
        refine ⟨k + 1, by simp, hlt, by simpa using g2, Or.inl ⟨by simp, ?_, ?_, e7, e8⟩⟩
        · rw [together_succ_false P s0 dec k g1, ← e5]; simp
        · rw [doneCol_succ dec k false g1]; simpa using e6
      · exact absurd e5 (by simp)
      · exact absurd e5 (by simp)
    · have := hR q
      simpa [MpiLocal, Function.update_of_ne hq] using this
  | enter r st k l hp =>
    refine ⟨R, fun q => ?_⟩
    by_cases hq : q = r
    · subst hq
      obtain ⟨k', e1, e2, e3, e4⟩ := hR q
      simp only [hp] at e1 e3 e4
      subst e1
      obtain ⟨g1, g2⟩ := drop_cons_get e3
      rcases e4 with ⟨_, e5, e6, e7, e8⟩ | ⟨e5, _⟩ | ⟨e5, _⟩
      · refine ⟨k, by simp, e2, by simpa using e3, Or.inr (Or.inl ⟨by simp, g1, by simp [e5], e6, ?_, e8⟩)⟩
        simp [e7, e5]
      · exact absurd e5 (by simp)
      · exact absurd e5 (by simp)
    · have := hR q
      simpa [MpiLocal, Function.update_of_ne hq] using this
  | root g rest hup =>
    have hall : ∀ r, ∃ k, (s.proc r).steps = k ∧ k ≤ dec.length ∧ (s.proc r).todo = dec.drop k ∧
        (s.proc r).waiting = true ∧ dec[k]? = some true ∧ (s.proc r).st = P.pre r k (together P s0 dec k r) ∧
        doneCol dec k = R ∧ s.up r = [P.send r (P.pre r k (together P s0 dec k r))] ∧ s.down r = [] := by
      intro r
      obtain ⟨k, e1, e2, e3, e4⟩ := hR r
      rcases e4 with ⟨_, _, _, e7, _⟩ | e4 | ⟨_, _, _, _, e7, _⟩
      · rw [hup r] at e7; exact absurd e7 (by simp)
      · exact ⟨k, e1, e2, e3, e4⟩
      · rw [hup r] at e7; exact absurd e7 (by simp)
    obtain ⟨k, -, -, -, -, hk, -, hkR, -⟩ := hall 0
    have hsame : ∀ r, (s.proc r).steps = k ∧ k ≤ dec.length ∧ (s.proc r).todo = dec.drop k ∧
        (s.proc r).waiting = true ∧ (s.proc r).st = P.pre r k (together P s0 dec k r) ∧
        s.up r = [P.send r (P.pre r k (together P s0 dec k r))] ∧ s.down r = [] := by
      intro r
      obtain ⟨k', e1, e2, e3, e4, e5, e6, e7, e8, e9⟩ := hall r
      have : k' = k := doneCol_inj dec e5 hk (by omega)
      subst this
      exact ⟨e1, e2, e3, e4, e6, e8, e9⟩
    have hg : g = fun r => P.send r (P.pre r k (together P s0 dec k r)) := by
      funext r
      obtain ⟨-, -, -, -, -, e, -⟩ := hsame r
      rw [hup r] at e
      exact (List.cons.inj e).1
    have hav : averaged g = meanDensity P (fun q => P.pre q k (together P s0 dec k q)) := by
      rw [hg]; exact averaged_send P (fun q => P.pre q k (together P s0 dec k q))
    refine ⟨R + 1, fun r => ?_⟩
    obtain ⟨e1, e2, e3, e4, e5, e6, e7⟩ := hsame r
    rw [hup r] at e6
    refine ⟨k, e1, e2, e3, Or.inr (Or.inr ⟨e4, hk, e5, by omega, (List.cons.inj e6).2, ?_⟩)⟩
    simp [e7, hav]
  | leave r st k l g rest hp hdn =>
    refine ⟨R, fun q => ?_⟩
    by_cases hq : q = r
    · subst hq
      obtain ⟨k', e1, e2, e3, e4⟩ := hR q
      simp only [hp] at e1 e3 e4
      subst e1
      obtain ⟨g1, g2⟩ := drop_cons_get e3
      have hlt : k < dec.length := by
        by_contra hc
        rw [List.getElem?_eq_none (by omega)] at g1
        exact absurd g1 (by simp)
      rcases e4 with ⟨e5, _⟩ | ⟨_, _, _, _, _, e6⟩ | ⟨_, _, e5, e6, e7, e8⟩
      · exact absurd e5 (by simp)
      · rw [hdn] at e6; exact absurd e6 (by simp)
      · rw [hdn] at e8
        obtain ⟨e9, e10⟩ := List.cons.inj e8
        refine ⟨k + 1, by simp, hlt, by simpa using g2, Or.inl ⟨by simp, ?_, ?_, e7, ?_⟩⟩
        · rw [together_succ_true P s0 dec k g1, ← e5, ← e9]; simp
        · rw [doneCol_succ dec k true g1]; simpa using e6
        · simpa using e10
    · have := hR q
      simpa [MpiLocal, Function.update_of_ne hq] using this

theorem mpiInv_reach (P : MpiProg A F K n L) (s0 : Fin (n + 1) → MpiRank A F K L) (dec : List Bool)
    (s s' : MpiSys A F K n L) (h : MpiInv P s0 dec s) (hs : MpiReach P s s') : MpiInv P s0 dec s' := by
  induction hs with
  | refl => exact h
  | tail _ h2 ih => exact mpiInv_step P s0 dec _ _ ih h2

theorem MpiExec.reach {P : MpiProg A F K n L} {m : ℕ} {s s' : MpiSys A F K n L} (h : MpiExec P m s s') : MpiReach P s s' := by
  induction h with
  | nil => exact Relation.ReflTransGen.refl
  | cons _ h2 ih => exact ih.tail h2

theorem mpi_progress (P : MpiProg A F K n L) (s0 : Fin (n + 1) → MpiRank A F K L) (dec : List Bool)
    (s : MpiSys A F K n L) (h : MpiInv P s0 dec s) (hf : ¬ ∀ r, (s.proc r).finished) : ∃ s', MpiStep P s s' := by
  obtain ⟨R, hR⟩ := h
  by_contra hno
  -- every process is finished or its density waits at the root
  have hcase : ∀ r, ((s.proc r).finished ∧ doneCol dec dec.length = R) ∨
      (∃ k g, dec[k]? = some true ∧ k < dec.length ∧ doneCol dec k = R ∧ s.up r = [g]) := by
    intro r
    obtain ⟨k, e1, e2, e3, e4⟩ := hR r
    rcases e4 with ⟨e5, e6, e7, e8, e9⟩ | ⟨e5, e6, e7, e8, e9, e10⟩ | ⟨e5, e6, e7, e8, e9, e10⟩
    · left
      cases hd : dec.drop k with
      | nil =>
        have : k = dec.length := by
          have := List.drop_eq_nil_iff.1 hd; omega
        exact ⟨⟨by rw [e3, hd], e5⟩, this ▸ e7⟩
      | cons b l =>
        exfalso
        have hp : s.proc r = ⟨(s.proc r).st, k, b :: l, false⟩ := by
          rw [← hd, ← e3, ← e1, ← e5]
        cases b with
        | false => exact hno ⟨_, MpiStep.alone s r _ k l hp⟩
        | true => exact hno ⟨_, MpiStep.enter s r _ k l hp⟩
    · right
      refine ⟨k, _, e6, ?_, e8, e9⟩
      by_contra hc
      rw [List.getElem?_eq_none (by omega)] at e6
      exact absurd e6 (by simp)
    · exfalso
      have hlt : k < dec.length := by
        by_contra hc
        rw [List.getElem?_eq_none (by omega)] at e6
        exact absurd e6 (by simp)
      cases hd : dec.drop k with
      | nil => have := List.drop_eq_nil_iff.1 hd; omega
      | cons b l =>
        have hb : b = true := by
          have := (drop_cons_get hd.symm).1
          rw [e6] at this
          exact (Option.some.inj this).symm
        subst hb
        have hp : s.proc r = ⟨(s.proc r).st, k, true :: l, true⟩ := by
          rw [← hd, ← e3, ← e1, ← e5]
        exact hno ⟨_, MpiStep.leave s r _ k l _ _ hp e10⟩
  obtain ⟨r0, hr0⟩ := not_forall.1 hf
  obtain ⟨k0, _, -, hk0, hkR, -⟩ : ∃ k g, dec[k]? = some true ∧ k < dec.length ∧ doneCol dec k = R ∧ s.up r0 = [g] := by
    rcases hcase r0 with h1 | h1
    · exact absurd h1.1 hr0
    · exact h1
  have hwait : ∀ r, ∃ g, s.up r = [g] := by
    intro r
    rcases hcase r with h1 | ⟨k, g, _, _, _, h5⟩
    · exfalso
      rcases hcase r0 with h2 | ⟨k, g, h2, h3, h4, _⟩
      · exact hr0 h2.1
      · have := doneCol_lt dec h3 h2; omega
    · exact ⟨g, h5⟩
  choose g hg using hwait
  exact hno ⟨_, MpiStep.root s g (fun _ => []) hg⟩

/-- decreases with every event -/
def mpiWork (s : MpiSys A F K n L) : ℕ :=
  ∑ r, (4 * (s.proc r).todo.length + (cond (s.proc r).waiting 0 2) + (s.up r).length)

theorem sum_lt_of_update (f f' : Fin (n + 1) → ℕ) (r : Fin (n + 1)) (h : ∀ q, q ≠ r → f' q = f q) (hr : f' r < f r) :
    ∑ q, f' q < ∑ q, f q :=
  Finset.sum_lt_sum (fun q _ => by
    by_cases hq : q = r
    · subst hq; exact hr.le
    · exact (h q hq).le) ⟨r, Finset.mem_univ _, hr⟩

theorem mpiWork_step (P : MpiProg A F K n L) (s s' : MpiSys A F K n L) (hs : MpiStep P s s') : mpiWork s' < mpiWork s := by
  unfold mpiWork
  cases hs with
  | alone r st k l hp =>
    apply sum_lt_of_update _ _ r
    · intro q hq; simp [Function.update_of_ne hq]
    · simp [hp]
  | enter r st k l hp =>
    apply sum_lt_of_update _ _ r
    · intro q hq; simp [Function.update_of_ne hq]
    · simp [hp]; omega
  | root g rest hup =>
    apply Finset.sum_lt_sum
    · intro q _; simp [hup q]
    · exact ⟨0, Finset.mem_univ _, by simp [hup 0]⟩
  | leave r st k l g rest hp hdn =>
    apply sum_lt_of_update _ _ r
    · intro q hq; simp [Function.update_of_ne hq]
    · simp [hp]; omega

theorem mpiExec_bound (P : MpiProg A F K n L) {m : ℕ} {s s' : MpiSys A F K n L} (h : MpiExec P m s s') :
    m + mpiWork s' ≤ mpiWork s := by
  induction h with
  | nil => simp
  | cons _ h2 ih => have := mpiWork_step P _ _ h2; omega

theorem mpiWork_start (s0 : Fin (n + 1) → MpiRank A F K L) (dec : List Bool) (d : Fin (n + 1) → List Bool)
    (hd : ∀ r, d r = dec) : mpiWork (mpiStart s0 d) = (n + 1) * (4 * dec.length + 2) := by
  simp [mpiWork, mpiStart, hd]

theorem mpi_finish (P : MpiProg A F K n L) (s0 : Fin (n + 1) → MpiRank A F K L) (dec : List Bool) :
    ∀ (w : ℕ) (s : MpiSys A F K n L), mpiWork s ≤ w → MpiInv P s0 dec s →
      ∃ s', MpiReach P s s' ∧ ∀ r, (s'.proc r).finished := by
  intro w
  induction w with
  | zero =>
    intro s hw hi
    by_cases hf : ∀ r, (s.proc r).finished
    · exact ⟨s, Relation.ReflTransGen.refl, hf⟩
    · obtain ⟨s', hs⟩ := mpi_progress P s0 dec s hi hf
      have := mpiWork_step P s s' hs; omega
  | succ w ih =>
    intro s hw hi
    by_cases hf : ∀ r, (s.proc r).finished
    · exact ⟨s, Relation.ReflTransGen.refl, hf⟩
    · obtain ⟨s', hs⟩ := mpi_progress P s0 dec s hi hf
      have := mpiWork_step P s s' hs
      obtain ⟨s'', h1, h2⟩ := ih s' (by omega) (mpiInv_step P s0 dec s s' hi hs)
      exact ⟨s'', Relation.ReflTransGen.head hs h1, h2⟩

end system

end PyECLOUD
