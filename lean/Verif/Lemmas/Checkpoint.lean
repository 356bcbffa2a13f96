import Verif.Spec.Checkpoint
import Mathlib.Data.List.Infix
import Mathlib.Tactic.Ring

namespace PyECLOUD

set_option linter.unusedSectionVars false

variable {K S M : Type} [Field K] [LinearOrder K]

theorem prefix_cases {α : Type} (p a b : List α) (h : p <+: a ++ b) : p <+: a ∨ ∃ q, p = a ++ q ∧ q <+: b := by
  obtain ⟨t, ht⟩ := h
  rcases List.append_eq_append_iff.1 ht with ⟨a', h1, -⟩ | ⟨c', h1, h2⟩
  · exact Or.inl ⟨a', h1.symm⟩
  · exact Or.inr ⟨c', h1, t, h2.symm⟩

theorem applyAll_append (d : Disk S M) (a b : List (FOp S M)) :
    d.applyAll (a ++ b) = (d.applyAll a).bind (fun d' => d'.applyAll b) := by
  induction a generalizing d with
  | nil => rfl
  | cons o a ih =>
    simp only [List.cons_append, Disk.applyAll]
    cases d.apply o with
    | error x => rfl
    | ok d' => exact ih d'

theorem applyAll_append_ok (d d' : Disk S M) (a b : List (FOp S M)) (h : d.applyAll (a ++ b) = .ok d') :
    ∃ d1, d.applyAll a = .ok d1 ∧ d1.applyAll b = .ok d' := by
  rw [applyAll_append] at h
  cases h1 : d.applyAll a with
  | error x => rw [h1] at h; cases h
  | ok d1 => rw [h1] at h; exact ⟨d1, rfl, h⟩

theorem lastDone_append (last : Option (ℕ × S)) (a b : List (FOp S M)) :
    lastDone last (a ++ b) = lastDone (lastDone last a) b := by
  induction a generalizing last with
  | nil => rfl
  | cons o a ih => cases o <;> exact ih _

/-- operations that leave the checkpoint folder alone -/
def FOp.neutral : FOp S M → Prop
  | .ckBegin _ => False
  | .ckEnd _ _ => False
  | .ckRemove _ => False
  | _ => True

theorem neutral_exec (d d' : Disk S M) (last : Option (ℕ × S)) (l : List (FOp S M)) (hn : ∀ o ∈ l, o.neutral)
    (h : d.applyAll l = .ok d') : d'.ck = d.ck ∧ lastDone last l = last := by
  induction l generalizing d with
  | nil => cases h; exact ⟨rfl, rfl⟩
  | cons o l ih =>
    have ho := hn o (by simp)
    have hl := fun o' ho' => hn o' (List.mem_cons_of_mem _ ho')
    cases o with
    | ckBegin i => exact absurd ho id
    | ckEnd i s => exact absurd ho id
    | ckRemove i => exact absurd ho id
    | matBegin => exact ih { d with mat := some none } hl h
    | matEnd m => exact ih { d with mat := some (some m) } hl h
    | cpBegin =>
      simp only [Disk.applyAll, Disk.apply] at h
      cases hm : d.mat with
      | none => rw [hm] at h; cases h
      | some v => rw [hm] at h; exact ih { ck := d.ck, mat := some v, cp := some none } hl h
    | cpEnd => exact ih { d with cp := d.mat } hl h

theorem neutral_prefix (l p : List (FOp S M)) (hn : ∀ o ∈ l, o.neutral) (hp : p <+: l) : ∀ o ∈ p, o.neutral :=
  fun o ho => hn o (hp.subset ho)

theorem matOps_neutral (c : CkCfg K) (e : PassEv K S M) : ∀ o ∈ matOps c e, o.neutral := by
  unfold matOps
  split
  · intro o ho
    simp only [List.mem_cons, List.not_mem_nil, or_false] at ho
    rcases ho with rfl | rfl <;> trivial
  · simp

theorem copyOps_neutral : ∀ o ∈ (copyOps : List (FOp S M)), o.neutral := by
  intro o ho
  simp only [copyOps, List.mem_cons, List.not_mem_nil, or_false] at ho
  rcases ho with rfl | rfl <;> trivial

theorem copySaveOps_neutral (c : CkCfg K) (st : CkSt K) (e : PassEv K S M) :
    (∀ o ∈ (copySaveOps c st e).1, o.neutral) ∧ (copySaveOps c st e).2.i = st.i ∧ (copySaveOps c st e).2.tLast = st.tLast := by
  unfold copySaveOps
  split
  · exact ⟨by simp, rfl, rfl⟩
  · split
    · exact ⟨copyOps_neutral, rfl, rfl⟩
    · exact ⟨by simp, rfl, rfl⟩

/-- what the checkpoint folder can look like, with the last completed checkpoint -/
inductive CkInv : List (ℕ × Option S) → Option (ℕ × S) → Prop
  | empty : CkInv [] none
  | torn0 : CkInv [(0, none)] none
  | one (i : ℕ) (s : S) : CkInv [(i, some s)] (some (i, s))
  | writing (i : ℕ) (s : S) : CkInv [(i, some s), (i + 1, none)] (some (i, s))
  | two (i : ℕ) (s s' : S) : CkInv [(i, some s), (i + 1, some s')] (some (i + 1, s'))

/-- ... between passages -/
inductive CkBd : List (ℕ × Option S) → Option (ℕ × S) → ℕ → Prop
  | empty : CkBd [] none 0
  | one (i : ℕ) (s : S) : CkBd [(i, some s)] (some (i, s)) (i + 1)

theorem CkBd.inv {l : List (ℕ × Option S)} {last : Option (ℕ × S)} {i : ℕ} (h : CkBd l last i) : CkInv l last := by
  cases h with
  | empty => exact .empty
  | one i s => exact .one i s

theorem ckPut_one (i : ℕ) (v w : Option S) : ckPut [(i, v)] (i + 1) w = [(i, v), (i + 1, w)] := by
  simp [ckPut]

theorem ckPut_two (i : ℕ) (v w w' : Option S) : ckPut [(i, v), (i + 1, w)] (i + 1) w' = [(i, v), (i + 1, w')] := by
  simp [ckPut]

theorem ckPut_nil (i : ℕ) (w : Option S) : ckPut [] i w = [(i, w)] := by simp [ckPut]

theorem ckPut_same (i : ℕ) (v w : Option S) : ckPut [(i, v)] i w = [(i, w)] := by simp [ckPut]

/-- the operations of one checkpoint -/
theorem ck_prefix (cps : List (FOp S M)) (hcp : ∀ o ∈ cps, o.neutral) (d d' : Disk S M) (last : Option (ℕ × S)) (i : ℕ)
    (hb : CkBd d.ck last i) (s : S) (p : List (FOp S M))
    (hp : p <+: [.ckBegin i, .ckEnd i s] ++ cps ++ (if 0 < i then [.ckRemove (i - 1)] else []))
    (h : d.applyAll p = .ok d') : CkInv d'.ck (lastDone last p) ∧
      (p = [.ckBegin i, .ckEnd i s] ++ cps ++ (if 0 < i then [.ckRemove (i - 1)] else []) →
        d'.ck = [(i, some s)] ∧ lastDone last p = some (i, s)) := by
  -- the situation after the pickle is complete
  have hmid : ∀ d1 : Disk S M, d.applyAll [.ckBegin i, .ckEnd i s] = .ok d1 →
      (i = 0 ∧ d1.ck = [(0, some s)]) ∨ ∃ j s0, i = j + 1 ∧ d1.ck = [(j, some s0), (j + 1, some s)] := by
    intro d1 h1
    simp only [Disk.applyAll, Disk.apply] at h1
    have := Except.ok.inj h1
    subst this
    cases hc : d.ck with
    | nil =>
      rw [hc] at hb
      cases hb
      left
      exact ⟨rfl, by simp [ckPut]⟩
    | cons a l =>
      rw [hc] at hb
      cases hb with
      | one j s0 =>
        right
        exact ⟨j, s0, rfl, by simp [ckPut]⟩
  rcases prefix_cases p _ _ hp with hp | ⟨q, rfl, hq⟩
  · rcases prefix_cases p _ _ hp with hp | ⟨q, rfl, hq⟩
    · -- within the two writing operations
      have hl : p = [] ∨ p = [.ckBegin i] ∨ p = [.ckBegin i, .ckEnd i s] := by
        match p, hp with
        | [], _ => exact Or.inl rfl
        | [a], hp =>
          have := List.prefix_cons_iff.1 hp
          simp at this
          simp [this]
        | [a, b], hp =>
          have := List.prefix_cons_iff.1 hp
          simp at this
          simp [this]
        | a :: b :: e :: l, hp =>
          have := hp.length_le
          simp at this
      rcases hl with rfl | rfl | rfl
      · cases h
        exact ⟨hb.inv, fun hh => by simp at hh⟩
      · simp only [Disk.applyAll, Disk.apply] at h
        have := Except.ok.inj h
        subst this
        refine ⟨?_, fun hh => by simp at hh⟩
        simp only [lastDone]
        cases hc : d.ck with
        | nil =>
          rw [hc] at hb
          cases hb
          rw [ckPut_nil]
          exact .torn0
        | cons a l =>
          rw [hc] at hb
          cases hb with
          | one j s0 =>
            rw [ckPut_one]
            exact .writing j s0
      · have hd : lastDone last [(.ckBegin i : FOp S M), .ckEnd i s] = some (i, s) := rfl
        rw [hd]
        rcases hmid d' h with ⟨h1, h2⟩ | ⟨j, s0, h1, h2⟩
        · rw [h2]
          subst h1
          exact ⟨.one 0 s, fun _ => ⟨rfl, rfl⟩⟩
        · rw [h2]
          subst h1
          exact ⟨.two j s0 s, fun hh => by simp at hh⟩
    · -- within the copy
      obtain ⟨d1, h1, h2⟩ := applyAll_append_ok d d' _ _ h
      have hnq := neutral_prefix _ _ hcp hq
      obtain ⟨n1, n2⟩ := neutral_exec d1 d' (some (i, s)) q hnq h2
      have hd : lastDone last ([(.ckBegin i : FOp S M), .ckEnd i s] ++ q) = some (i, s) := by
        rw [lastDone_append]; exact n2
      rw [hd, n1]
      rcases hmid d1 h1 with ⟨h3, h4⟩ | ⟨j, s0, h3, h4⟩
      · rw [h4]
        subst h3
        exact ⟨.one 0 s, fun _ => ⟨rfl, rfl⟩⟩
      · rw [h4]
        subst h3
        refine ⟨.two j s0 s, fun hh => ?_⟩
        have := congrArg List.length hh
        have := hq.length_le
        simp at *
        omega
  · -- within the removal
    obtain ⟨d1, h1, h2⟩ := applyAll_append_ok d d' _ _ h
    obtain ⟨d0, h0, h1⟩ := applyAll_append_ok d d1 _ _ h1
    obtain ⟨n1, n2⟩ := neutral_exec d0 d1 (some (i, s)) cps hcp h1
    have hd : lastDone last ([(.ckBegin i : FOp S M), .ckEnd i s] ++ cps) = some (i, s) := by
      rw [lastDone_append]; exact n2
    rw [lastDone_append, hd]
    rcases hmid d0 h0 with ⟨h3, h4⟩ | ⟨j, s0, h3, h4⟩
    · subst h3
      simp only [Nat.lt_irrefl, if_false, List.prefix_nil] at hq
      subst hq
      cases h2
      rw [n1, h4]
      exact ⟨.one 0 s, fun _ => ⟨rfl, rfl⟩⟩
    · subst h3
      rw [if_pos (Nat.succ_pos j), Nat.add_sub_cancel] at hq ⊢
      have hl : q = [] ∨ q = [.ckRemove j] := by
        match q, hq with
        | [], _ => exact Or.inl rfl
        | [a], hq =>
          have := List.prefix_cons_iff.1 hq
          simp at this
          simp [this]
        | a :: b :: l, hq =>
          have := hq.length_le
          simp at this
      rcases hl with rfl | rfl
      · cases h2
        rw [n1, h4]
        exact ⟨.two j s0 s, fun hh => by simp at hh⟩
      · simp only [Disk.applyAll, Disk.apply, n1, h4] at h2
        simp at h2
        subst h2
        exact ⟨.one (j + 1) s, fun _ => ⟨rfl, rfl⟩⟩

/-- one passage: whatever the crash point the folder is in a known state, and it is at a boundary after the passage -/
theorem pass_prefix (c : CkCfg K) (hlast : c.lastCloud = true) (d d' : Disk S M) (last : Option (ℕ × S)) (st : CkSt K)
    (e : PassEv K S M) (hb : CkBd d.ck last st.i) (p : List (FOp S M)) (hp : p <+: (passOps c st e).1)
    (h : d.applyAll p = .ok d') : CkInv d'.ck (lastDone last p) ∧
      (p = (passOps c st e).1 → CkBd d'.ck (lastDone last p) (passOps c st e).2.i) := by
  obtain ⟨cn1, cn2, -⟩ := copySaveOps_neutral c (ckOps c st e).2 e
  have hpi : (passOps c st e).2.i = (ckOps c st e).2.i := cn2
  rw [hpi]
  -- the checkpoint part
  have hck : ∀ (d1 d2 : Disk S M), CkBd d1.ck last st.i → ∀ q, q <+: (ckOps c st e).1 → d1.applyAll q = .ok d2 →
      CkInv d2.ck (lastDone last q) ∧ (q = (ckOps c st e).1 → CkBd d2.ck (lastDone last q) (ckOps c st e).2.i) := by
    intro d1 d2 hb1 q hq h2
    unfold ckOps at hq ⊢
    cases hdt : c.dt with
    | none =>
      rw [hdt] at hq
      simp only [List.prefix_nil] at hq
      subst hq
      cases h2
      exact ⟨hb1.inv, fun _ => hb1⟩
    | some dt =>
      rw [hdt] at hq
      simp only at hq ⊢
      by_cases hd : e.tt - st.tLast ≥ dt
      · rw [if_pos hd] at hq ⊢
        simp only [hlast, and_true, if_true] at hq ⊢
        have := ck_prefix (if c.copyFolder then copyOps else []) (by
          split
          · exact copyOps_neutral
          · simp) d1 d2 last st.i hb1 e.st q hq h2
        refine ⟨this.1, fun hh => ?_⟩
        obtain ⟨a1, a2⟩ := this.2 hh
        rw [a1, a2]
        exact .one st.i e.st
      · rw [if_neg hd] at hq ⊢
        simp only [List.prefix_nil] at hq
        subst hq
        cases h2
        exact ⟨hb1.inv, fun _ => hb1⟩
  unfold passOps at hp ⊢
  simp only at hp ⊢
  rcases prefix_cases p _ _ hp with hp | ⟨q, rfl, hq⟩
  · rcases prefix_cases p _ _ hp with hp | ⟨q, rfl, hq⟩
    · obtain ⟨n1, n2⟩ := neutral_exec d d' last p (neutral_prefix _ _ (matOps_neutral c e) hp) h
      rw [n2]
      refine ⟨by rw [n1]; exact hb.inv, fun hh => ?_⟩
      -- then the remaining operations are empty
      have hlen := congrArg List.length hh
      have := hp.length_le
      simp only [List.length_append] at hlen
      have hnil : (ckOps c st e).1 = [] := List.length_eq_zero_iff.1 (by omega)
      have := (hck d d hb [] (List.nil_prefix) rfl).2 hnil.symm
      rw [n1]
      exact this
    · obtain ⟨d1, h1, h2⟩ := applyAll_append_ok d d' _ _ h
      obtain ⟨n1, n2⟩ := neutral_exec d d1 last _ (matOps_neutral c e) h1
      have := hck d1 d' (by rw [n1]; exact hb) q hq h2
      rw [lastDone_append, n2]
      refine ⟨this.1, fun hh => this.2 ?_⟩
      have hlen := congrArg List.length hh
      have hle := hq.length_le
      simp only [List.length_append] at hlen
      exact hq.eq_of_length (by omega)
  · obtain ⟨d2, h12, h3⟩ := applyAll_append_ok d d' _ _ h
    obtain ⟨d1, h1, h2⟩ := applyAll_append_ok d d2 _ _ h12
    obtain ⟨n1, n2⟩ := neutral_exec d d1 last _ (matOps_neutral c e) h1
    have := (hck d1 d2 (by rw [n1]; exact hb) _ (List.prefix_refl _) h2).2 rfl
    obtain ⟨m1, m2⟩ := neutral_exec d2 d' (lastDone last (ckOps c st e).1) q (neutral_prefix _ _ cn1 hq) h3
    rw [lastDone_append, lastDone_append, n2, m2, m1]
    exact ⟨this.inv, fun _ => this⟩

/-- a whole run -/
theorem life_prefix (c : CkCfg K) (hlast : c.lastCloud = true) (evs : List (PassEv K S M)) (d d' : Disk S M)
    (last : Option (ℕ × S)) (st : CkSt K) (hb : CkBd d.ck last st.i) (p : List (FOp S M)) (hp : p <+: lifeOps c st evs)
    (h : d.applyAll p = .ok d') : CkInv d'.ck (lastDone last p) ∧
      (p = lifeOps c st evs → ∃ i, CkBd d'.ck (lastDone last p) i) := by
  induction evs generalizing d last st p with
  | nil =>
    simp only [lifeOps, List.prefix_nil] at hp
    subst hp
    cases h
    exact ⟨hb.inv, fun _ => ⟨_, hb⟩⟩
  | cons e evs ih =>
    simp only [lifeOps] at hp ⊢
    rcases prefix_cases p _ _ hp with hp | ⟨q, rfl, hq⟩
    · have := pass_prefix c hlast d d' last st e hb p hp h
      refine ⟨this.1, fun hh => ?_⟩
      have hlen := congrArg List.length hh
      have hle := hp.length_le
      simp only [List.length_append] at hlen
      exact ⟨_, this.2 (hp.eq_of_length (by omega))⟩
    · obtain ⟨d1, h1, h2⟩ := applyAll_append_ok d d' _ _ h
      have hb1 := (pass_prefix c hlast d d1 last st e hb _ (List.prefix_refl _) h1).2 rfl
      have := ih d1 _ _ hb1 q hq h2
      rw [lastDone_append]
      exact ⟨this.1, fun hh => this.2 (List.append_cancel_left hh)⟩

theorem startup_bd (cf : Bool) (d : Disk S M) (last : Option (ℕ × S)) (hi : CkInv d.ck last) (r : Option (ℕ × S × M))
    (hs : startup cf d = .ok r) (time : S → K) : CkBd d.ck last (resume time r).i := by
  unfold startup at hs
  cases hc : d.ck with
  | nil =>
    rw [hc] at hi hs
    cases hi
    simp only at hs
    have := Except.ok.inj hs
    subst this
    exact .empty
  | cons a l =>
    rw [hc] at hi hs
    cases hi with
    | torn0 => cases hs
    | one i s =>
      simp only at hs
      split at hs
      · cases hs
      · cases hs
      · have := Except.ok.inj hs
        subst this
        exact .one i s
    | writing i s => cases hs
    | two i s s' => cases hs

theorem reach_inv (c : CkCfg K) (hlast : c.lastCloud = true) (time : S → K) (d : Disk S M) (last : Option (ℕ × S))
    (h : Reach c time d last) : CkInv d.ck last := by
  induction h with
  | fresh => exact .empty
  | life d last r evs pre d' _ hs hp hd ih =>
    exact (life_prefix c hlast evs d d' last _ (startup_bd _ d last ih r hs time) pre hp hd).1

end PyECLOUD
