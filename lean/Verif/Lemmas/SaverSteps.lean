import Verif.Spec.Saver
import Mathlib.Algebra.BigOperators.Group.List.Basic
import Mathlib.Tactic.Linarith
import Mathlib.Algebra.Order.Field.Basic

/-!
# Lemmas about the step-by-step saver
-/

set_option linter.unusedSectionVars false

namespace PyECLOUD

variable {K : Type} [Field K] [LinearOrder K]

/-- time of the last record -/
def lastTime (tp : K) : List (Group K) → K
  | [] => tp
  | g :: gs => lastTime g.2.tt gs

theorem lastTime_append (tp : K) (gs : List (Group K)) (g : Group K) : lastTime tp (gs ++ [g]) = g.2.tt := by
  induction gs generalizing tp with
  | nil => rfl
  | cons a gs ih => exact ih _

theorem grouped_open (dt tp : K) (gs : List (Group K)) (opn : List (WitIn K)) (i : WitIn K)
    (h : Grouped dt tp gs opn) (hi : i.tt - lastTime tp gs < dt) : Grouped dt tp gs (opn ++ [i]) := by
  induction gs generalizing tp with
  | nil =>
    intro j hj
    rcases List.mem_append.1 hj with hj | hj
    · exact h j hj
    · rw [List.mem_singleton.1 hj]; exact hi
  | cons g gs ih => exact ⟨h.1, h.2.1, ih _ h.2.2 hi⟩

theorem grouped_close (dt tp : K) (gs : List (Group K)) (opn : List (WitIn K)) (i : WitIn K)
    (h : Grouped dt tp gs opn) (hi : dt ≤ i.tt - lastTime tp gs) : Grouped dt tp (gs ++ [(opn, i)]) [] := by
  induction gs generalizing tp with
  | nil => exact ⟨h, hi, fun j hj => absurd hj (by simp)⟩
  | cons g gs ih => exact ⟨h.1, h.2.1, ih _ h.2.2 hi⟩

theorem dbl_length (l : List K) : (dbl l).length = 2 * l.length := by
  unfold dbl; rw [List.length_append, List.length_map, two_mul]

theorem dbl_take (l : List K) (n : ℕ) (h : n ≤ l.length) : (dbl l).take n = l.take n := by
  unfold dbl; rw [List.take_append_of_le_length h]

theorem set_take_succ (l : List K) (n : ℕ) (v : K) (h : n < l.length) : (l.set n v).take (n + 1) = l.take n ++ [v] := by
  rw [List.take_succ, List.getElem?_set_self h, List.take_set_of_le le_rfl]
  rfl

/-- What holds after any number of steps. -/
structure SbsInv (c : SbsCfg K) (s : Sbs K) (inps : List (WitIn K)) (gs : List (Group K)) (opn : List (WitIn K)) : Prop where
  cover : inps = gs.flatMap Group.steps ++ opn
  grouped : Grouped c.dtSave (-1) gs opn
  num : s.n = gs.length
  last : s.tLast = lastTime (-1) gs
  a1 : s.aImp = (opn.map (fun i => i.cnt.nelImp)).sum
  a2 : s.aEmit = (opn.map (fun i => i.cnt.nelEmit)).sum
  a3 : s.aEnImp = (opn.map (fun i => i.cnt.enImp)).sum
  a4 : s.aEnEmit = (opn.map (fun i => i.cnt.enEmit)).sum
  recd : ∀ ch ∈ c.channels, s.series ch = gs.map (fun g => g.record c ch)
  len : ∃ L, 0 < L ∧ s.n ≤ L ∧ (∀ ch ∈ c.channels, (s.buf ch).length = L) ∧ ∀ row ∈ s.probe, row.length = L
  probes : s.probe.length = c.probes.length
  prec : ∀ (k : ℕ) (p : K × K × K) (row : List K), c.probes[k]? = some p → s.probe[k]? = some row →
    row.take s.n = gs.map (fun g => probeValue c g.2 p)

theorem sbsInv_init (c : SbsCfg K) (size : ℕ) (h : 0 < size) : SbsInv c (Sbs.init c size) [] [] [] := by
  refine ⟨rfl, fun i hi => absurd hi (by simp), rfl, rfl, rfl, rfl, rfl, rfl, fun ch _ => rfl,
    ⟨size, h, Nat.zero_le _, fun ch _ => List.length_replicate, ?_⟩, ?_, fun k p row _ _ => rfl⟩
  · intro row hr
    simp only [Sbs.init, List.mem_map] at hr
    obtain ⟨_, _, rfl⟩ := hr
    exact List.length_replicate
  · simp [Sbs.init]

theorem t_mem (c : SbsCfg K) : SCh.t ∈ c.channels := by
  unfold SbsCfg.channels; simp

theorem sbsInv_resize (c : SbsCfg K) (s : Sbs K) (inps : List (WitIn K)) (gs : List (Group K)) (opn : List (WitIn K))
    (h : SbsInv c s inps gs opn) :
    SbsInv c (s.resize c) inps gs opn ∧ (∀ ch ∈ c.channels, (s.resize c).n < ((s.resize c).buf ch).length) ∧
      ∀ row ∈ (s.resize c).probe, (s.resize c).n < row.length := by
  obtain ⟨L, hL0, hnL, hL, hP⟩ := h.len
  unfold Sbs.resize
  by_cases hc : (s.n : ℤ) - 1 ≥ ((s.buf .t).length : ℤ) - 1
  · rw [if_pos hc]
    rw [hL .t (t_mem c)] at hc
    have hn : s.n = L := by omega
    refine ⟨⟨h.cover, h.grouped, h.num, h.last, h.a1, h.a2, h.a3, h.a4, ?_, ⟨2 * L, by omega, ?_, ?_, ?_⟩, ?_, ?_⟩, ?_, ?_⟩
    · intro ch hch
      have := h.recd ch hch
      simp only [Sbs.series, if_pos hch] at this ⊢
      rw [dbl_take _ _ (by rw [hL ch hch]; exact hnL)]
      exact this
    · show s.n ≤ 2 * L
      omega
    · intro ch hch
      simp only [if_pos hch]
      rw [dbl_length, hL ch hch]
    · intro row hr
      obtain ⟨r, hr', rfl⟩ := List.mem_map.1 hr
      rw [dbl_length, hP r hr']
    · simp only [List.length_map]
      exact h.probes
    · intro k p row hk hr
      simp only [List.getElem?_map, Option.map_eq_some_iff] at hr
      obtain ⟨r, hr, rfl⟩ := hr
      have hlen := hP r (List.mem_of_getElem? hr)
      rw [← h.prec k p r hk hr]
      exact dbl_take _ _ (by rw [hlen]; exact hnL)
    · intro ch hch
      simp only [if_pos hch]
      rw [dbl_length, hL ch hch]
      omega
    · intro row hr
      obtain ⟨r, hr', rfl⟩ := List.mem_map.1 hr
      rw [dbl_length, hP r hr']
      show s.n < 2 * L
      omega
  · rw [if_neg hc]
    rw [hL .t (t_mem c)] at hc
    exact ⟨h, fun ch hch => by rw [hL ch hch]; omega, fun row hr => by rw [hP row hr]; omega⟩

theorem sbsInv_save (c : SbsCfg K) (s : Sbs K) (inps : List (WitIn K)) (gs : List (Group K)) (opn : List (WitIn K))
    (h : SbsInv c s inps gs opn) (i : WitIn K) :
    ∃ s', s.save c i = .ok s' ∧
      ((i.tt - lastTime (-1) gs < c.dtSave ∧ SbsInv c s' (inps ++ [i]) gs (opn ++ [i])) ∨
       (c.dtSave ≤ i.tt - lastTime (-1) gs ∧ SbsInv c s' (inps ++ [i]) (gs ++ [(opn, i)]) [])) := by
  unfold Sbs.save
  have hl : (s.accumulate i).tLast = lastTime (-1) gs := h.last
  simp only [hl]
  by_cases hc : i.tt - lastTime (-1) gs ≥ c.dtSave
  · rw [if_pos hc]
    have hr : (s.accumulate i).resize c = (s.resize c).accumulate i := by
      unfold Sbs.resize Sbs.accumulate
      simp only
      split <;> rfl
    obtain ⟨hi, hb, hp⟩ := sbsInv_resize c s inps gs opn h
    rw [hr]
    obtain ⟨r, hrd⟩ : ∃ r, r = s.resize c := ⟨_, rfl⟩
    rw [← hrd] at hi hb hp ⊢
    unfold Sbs.write
    rw [if_pos ⟨hb, hp⟩]
    obtain ⟨L, hL0, hnL, hL, hP⟩ := hi.len
    refine ⟨_, rfl, Or.inr ⟨hc, ⟨?_, grouped_close _ _ _ _ _ hi.grouped hc, ?_, ?_, rfl, rfl, rfl, rfl, ?_, ⟨L, hL0, ?_, ?_, ?_⟩, ?_, ?_⟩⟩⟩
    · rw [hi.cover, List.flatMap_append]
      simp [Group.steps]
    · show r.n + 1 = _
      rw [hi.num, List.length_append, List.length_singleton]
    · exact (lastTime_append (-1 : K) gs (opn, i)).symm
    · intro ch hch
      have h1 := hi.recd ch hch
      have h2 := hb ch hch
      simp only [Sbs.series] at h1 ⊢
      show ((if ch ∈ c.channels then (r.buf ch).set r.n _ else _) : List K).take (r.n + 1) = _
      rw [if_pos hch, set_take_succ _ _ _ h2, h1, List.map_append]
      congr 1
      simp only [List.map_cons, List.map_nil, List.cons.injEq, and_true]
      cases ch <;> simp only [Sbs.value, Group.record, Group.steps, Sbs.accumulate, hi.a1, hi.a2, hi.a3, hi.a4,
        List.map_append, List.sum_append, List.map_cons, List.map_nil, List.sum_cons, List.sum_nil, add_zero]
    · show r.n + 1 ≤ L
      have := hb .t (t_mem c)
      rw [hL .t (t_mem c)] at this
      exact this
    · intro ch hch
      show (if ch ∈ c.channels then (r.buf ch).set r.n _ else _ : List K).length = L
      rw [if_pos hch, List.length_set, hL ch hch]
    · intro row hr
      simp only [List.mem_map, Sbs.accumulate] at hr
      obtain ⟨q, hq, rfl⟩ := hr
      rw [List.length_set]
      exact hP _ (List.of_mem_zip hq).1
    · simp only [List.length_map, List.length_zip, Sbs.accumulate, hi.probes, min_self]
    · intro k p row hk hrow
      simp only [Sbs.accumulate, List.getElem?_map, Option.map_eq_some_iff] at hrow
      obtain ⟨q, hq, rfl⟩ := hrow
      rw [List.getElem?_zip_eq_some] at hq
      have e : q.2 = p := by rw [hk] at hq; exact (Option.some.inj hq.2).symm
      have hrl := hp q.1 (List.mem_of_getElem? hq.1)
      show (q.1.set r.n (probeValue c i q.2)).take (r.n + 1) = _
      rw [set_take_succ _ _ _ hrl, hi.prec k p q.1 hk hq.1, e, List.map_append]
      rfl
  · rw [if_neg hc]
    have hc' := not_le.1 hc
    refine ⟨_, rfl, Or.inl ⟨hc', ⟨?_, grouped_open _ _ _ _ _ h.grouped hc', h.num, h.last, ?_, ?_, ?_, ?_, h.recd, h.len, h.probes, h.prec⟩⟩⟩
    · rw [h.cover, List.append_assoc]
    · simp [Sbs.accumulate, h.a1]
    · simp [Sbs.accumulate, h.a2]
    · simp [Sbs.accumulate, h.a3]
    · simp [Sbs.accumulate, h.a4]

theorem saveAll_append (c : SbsCfg K) (s s' : Sbs K) (l : List (WitIn K)) (i : WitIn K) (h : s.saveAll c l = .ok s') :
    s.saveAll c (l ++ [i]) = s'.save c i := by
  induction l generalizing s with
  | nil =>
    rw [← Except.ok.inj h]
    simp only [List.nil_append, Sbs.saveAll]
    cases s.save c i <;> rfl
  | cons j l ih =>
    simp only [List.cons_append, Sbs.saveAll] at h ⊢
    cases hs : s.save c j with
    | ok r => rw [hs] at h; exact ih r h
    | error e => rw [hs] at h; cases h

theorem sbsInv_saveAll (c : SbsCfg K) (size : ℕ) (h : 0 < size) (inps : List (WitIn K)) :
    ∃ s gs opn, (Sbs.init c size).saveAll c inps = .ok s ∧ SbsInv c s inps gs opn := by
  induction inps using List.reverseRecOn with
  | nil => exact ⟨_, [], [], rfl, sbsInv_init c size h⟩
  | append_singleton l i ih =>
    obtain ⟨s, gs, opn, hs, hi⟩ := ih
    obtain ⟨s', h1, h2⟩ := sbsInv_save c s l gs opn hi i
    rw [saveAll_append c _ s l i hs, h1]
    rcases h2 with ⟨-, h2⟩ | ⟨-, h2⟩
    · exact ⟨_, _, _, rfl, h2⟩
    · exact ⟨_, _, _, rfl, h2⟩

end PyECLOUD
