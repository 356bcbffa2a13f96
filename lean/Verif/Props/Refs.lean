import Verif.Spec.Refs

/-!
# C171: recordings keep the values of the moment at which they were made
-/

namespace PyECLOUD

variable {V : Type}

/-- The object exists already. -/
def ArrMem.Old (m : ArrMem V) (p : Addr) : Prop := ∀ k, m.next ≤ k → p ≠ .made k

theorem ArrMem.Old.ne {m : ArrMem V} {p : Addr} (h : m.Old p) : p ≠ .made m.next := h _ (Nat.le_refl _)

theorem ArrMem.Old.later {m m' : ArrMem V} {p : Addr} (h : m.Old p) (e : m'.next = m.next + 1) : m'.Old p :=
  fun k hk => h k (by omega)

/-- Invariant for one recorder. -/
structure RefInv (r : Recorder) (m : ArrMem V) (d : Diary V) : Prop where
  own : Function.Injective m.env
  lt : ∀ a, m.Old (m.env a)
  val : ∀ a, m.val a = d.now a
  rlt : ∀ p ∈ m.rec' r, m.Old p
  apart : ∀ p ∈ m.rec' r, ∀ a, m.env a = p → r.src.2 = false ∧ a = r.src.1
  shown : m.shown r = d.pages r

theorem src_subject (r : Recorder) : r.src.1 = r.subject := by cases r <;> rfl

theorem sliced_live (r : Recorder) : r.sliced = r.live := by cases r <;> rfl

theorem refInv_step (r : Recorder) (m : ArrMem V) (d : Diary V) (h : RefInv r m d) (op : ArrOp V)
    (hop : r.src.2 = true ∨ ∀ f, op ≠ .write r.src.1 f) : RefInv r (m.step op) (d.step op) := by
  have hval : m.val = d.now := funext h.val
  cases op with
  | write a f =>
    have hne : ∀ p ∈ m.rec' r, p ≠ m.env a := by
      intro p hp he
      obtain ⟨h1, h2⟩ := h.apart p hp a he.symm
      rcases hop with hop | hop
      · rw [h1] at hop; simp at hop
      · exact hop f (by rw [← h2])
    refine ⟨h.own, h.lt, fun b => ?_, h.rlt, h.apart, ?_⟩
    · by_cases hb : b = a
      · subst hb; simp [ArrMem.val, ArrMem.step, Diary.step, ← hval]
      · have : m.env b ≠ m.env a := fun e => hb (h.own e)
        simp only [ArrMem.val, ArrMem.step, Diary.step, this, hb, if_false]
        exact h.val b
    · rw [show (d.step (.write a f)).pages r = d.pages r from rfl, ← h.shown]
      refine List.map_congr_left fun p hp => ?_
      simp [ArrMem.step, hne p hp]
  | bind a f =>
    refine ⟨fun b c hbc => ?_, fun b => ?_, fun b => ?_, fun p hp => ?_, fun p hp b hb => ?_, ?_⟩
    · simp only [ArrMem.step] at hbc
      by_cases hb : b = a <;> by_cases hc : c = a
      · rw [hb, hc]
      · simp only [hb, hc, if_true, if_false] at hbc
        exact absurd hbc.symm (h.lt c).ne
      · simp only [hb, hc, if_true, if_false] at hbc
        exact absurd hbc (h.lt b).ne
      · simp only [hb, hc, if_false] at hbc
        exact h.own hbc
    · by_cases hb : b = a
      · intro k hk
        simp only [ArrMem.step, hb, if_true] at hk ⊢
        simp only [ne_eq, Addr.made.injEq]; omega
      · simp only [ArrMem.step, hb, if_false]; exact (h.lt b).later rfl
    · by_cases hb : b = a
      · simp [ArrMem.val, ArrMem.step, Diary.step, hb, ← hval]
      · have : m.env b ≠ .made m.next := (h.lt b).ne
        simp only [ArrMem.val, ArrMem.step, Diary.step, hb, if_false, this]
        exact h.val b
    · exact (h.rlt p hp).later rfl
    · have hlt := h.rlt p hp
      by_cases hba : b = a
      · simp only [ArrMem.step, hba, if_true] at hb
        exact absurd hb.symm hlt.ne
      · simp only [ArrMem.step, hba, if_false] at hb
        exact h.apart p hp b hb
    · rw [show (d.step (.bind a f)).pages r = d.pages r from rfl, ← h.shown]
      refine List.map_congr_left fun p hp => ?_
      have : p ≠ .made m.next := (h.rlt p hp).ne
      simp [ArrMem.step, this]
  | record s n =>
    by_cases hc : s.src.2 = true
    · have hst : m.step (.record s n) = { m with
          obj := fun p => if p = .made m.next then (if s.sliced then (m.val s.src.1).take n else m.val s.src.1) else m.obj p,
          next := m.next + 1, rec' := fun t => if t = s then m.rec' t ++ [.made m.next] else m.rec' t } := by
        simp [ArrMem.step, hc]
      rw [hst]
      refine ⟨h.own, fun b => (h.lt b).later rfl, fun b => ?_, fun p hp => ?_, fun p hp b hb => ?_, ?_⟩
      · have : m.env b ≠ .made m.next := (h.lt b).ne
        simp only [ArrMem.val, this, if_false]
        exact h.val b
      · by_cases hr : r = s
        · simp only [hr, if_true, List.mem_append, List.mem_singleton] at hp
          rcases hp with hp | hp
          · exact (h.rlt p (hr ▸ hp)).later rfl
          · rintro k hk rfl
            simp only [Addr.made.injEq] at hp
            change m.next + 1 ≤ k at hk
            omega
        · simp only [hr, if_false] at hp
          exact (h.rlt p hp).later rfl
      · by_cases hr : r = s
        · simp only [hr, if_true, List.mem_append, List.mem_singleton] at hp
          rcases hp with hp | hp
          · exact h.apart p (hr ▸ hp) b hb
          · exact absurd (hb.trans hp) (h.lt b).ne
        · simp only [hr, if_false] at hp
          exact h.apart p hp b hb
      · have hold : (m.rec' r).map (fun p => if p = .made m.next then (if s.sliced then (m.val s.src.1).take n else m.val s.src.1) else m.obj p)
            = d.pages r := by
          rw [← h.shown]
          refine List.map_congr_left fun p hp => ?_
          have : p ≠ .made m.next := (h.rlt p hp).ne
          simp [this]
        by_cases hr : r = s
        · subst hr
          simp only [ArrMem.shown, if_true, List.map_append, hold, Diary.step, ← src_subject, ← sliced_live, List.map_cons, List.map_nil, ← hval]
        · simp only [ArrMem.shown, hr, if_false, hold, Diary.step]
    · have hst : m.step (.record s n) = { m with rec' := fun t => if t = s then m.rec' t ++ [m.env s.src.1] else m.rec' t } := by
        simp [ArrMem.step, hc]
      have hsl : s.sliced = false := by
        cases s <;> simp_all [Recorder.src, Recorder.sliced]
      rw [hst]
      refine ⟨h.own, h.lt, h.val, fun p hp => ?_, fun p hp b hb => ?_, ?_⟩
      · by_cases hr : r = s
        · simp only [hr, if_true, List.mem_append, List.mem_singleton] at hp
          rcases hp with hp | hp
          · exact h.rlt p (hr ▸ hp)
          · rw [hp]; exact h.lt _
        · simp only [hr, if_false] at hp
          exact h.rlt p hp
      · by_cases hr : r = s
        · simp only [hr, if_true, List.mem_append, List.mem_singleton] at hp
          rcases hp with hp | hp
          · exact h.apart p (hr ▸ hp) b hb
          · rw [hp] at hb
            exact ⟨by rw [hr]; simpa using hc, by rw [hr]; exact h.own hb⟩
        · simp only [hr, if_false] at hp
          exact h.apart p hp b hb
      · by_cases hr : r = s
        · subst hr
          have h1 := h.shown
          have h2 := h.val r.src.1
          simp only [ArrMem.shown] at h1
          simp only [ArrMem.val] at h2
          simp only [ArrMem.shown, if_true, List.map_append, h1, Diary.step, ← src_subject, ← sliced_live, List.map_cons, List.map_nil, hsl, h2]
          simp
        · have h1 := h.shown
          simp only [ArrMem.shown] at h1
          simp only [ArrMem.shown, hr, if_false, h1, Diary.step]

theorem refInv_run (r : Recorder) (ops : List (ArrOp V)) :
    ∀ (m : ArrMem V) (d : Diary V), RefInv r m d → (r.src.2 = true ∨ ∀ f, .write r.src.1 f ∉ ops) →
      RefInv r (m.run ops) (d.run ops) := by
  induction ops with
  | nil => intro m d h _; exact h
  | cons op ops ih =>
    intro m d h hop
    refine ih _ _ (refInv_step r m d h op ?_) ?_
    · rcases hop with hop | hop
      · exact .inl hop
      · exact .inr fun f e => hop f (by simp [e])
    · rcases hop with hop | hop
      · exact .inl hop
      · exact .inr fun f hf => hop f (List.mem_cons_of_mem _ hf)

theorem refInv_fresh (r : Recorder) (m : ArrMem V) (hm : m.Fresh) : RefInv r m ⟨m.val, fun _ => []⟩ :=
  ⟨fun a b h => by rw [hm.own, hm.own] at h; exact Addr.start.inj h, fun a k _ => by rw [hm.own]; simp, fun _ => rfl, by simp [hm.none], by simp [hm.none], by simp [ArrMem.shown, hm.none]⟩

/-- Whatever the simulation writes in place or makes anew, and whatever the field solver does to its arrays: histograms, copies of the
macroparticles, recordings of an interaction and the density movies of single clouds show the values of the moment at which they were
recorded. -/
theorem C171_recorded (m : ArrMem V) (hm : m.Fresh) (ops : List (ArrOp V)) (hops : ∀ op ∈ ops, op.occurs) (r : Recorder)
    (hr : r ≠ .movieRho ∧ r ≠ .movieEx ∧ r ≠ .movieEy) :
    (m.run ops).shown r = (Diary.run ⟨m.val, fun _ => []⟩ ops).pages r := by
  refine (refInv_run r ops m _ (refInv_fresh r m hm) ?_).shown
  cases r <;> first | exact .inl rfl | (refine .inr fun f hf => ?_; exact hops _ hf) | simp at hr

/-- The movies of the total density and of the field do so, too, if the solver puts each density and field into a new array. -/
theorem C171_movies (m : ArrMem V) (hm : m.Fresh) (ops : List (ArrOp V)) (hops : ∀ op ∈ ops, op.occurs)
    (hsolve : ∀ f, .write .scRho f ∉ ops ∧ .write .scEx f ∉ ops ∧ .write .scEy f ∉ ops) (r : Recorder) :
    (m.run ops).shown r = (Diary.run ⟨m.val, fun _ => []⟩ ops).pages r := by
  refine (refInv_run r ops m _ (refInv_fresh r m hm) ?_).shown
  cases r <;> first | exact .inl rfl | (refine .inr fun f hf => ?_; exact hops _ hf) | (refine .inr fun f hf => ?_) <;>
    simp_all [Recorder.src]

/-- Arrays have the values that they would have if nothing was ever shared. -/
theorem C171_values (m : ArrMem V) (hm : m.Fresh) (ops : List (ArrOp V)) (a : ArrName) :
    (m.run ops).val a = (Diary.run ⟨m.val, fun _ => []⟩ ops).now a :=
  (refInv_run (.dict 0 0) ops m _ (refInv_fresh _ m hm) (.inl rfl)).val a

/-- With a solver that overwrites its array, all the frames of the movie would show the last density. -/
theorem C171_movie_overwritten (m : ArrMem V) (hm : m.Fresh) (vs : List (List V)) (v : List V) :
    (m.run ((vs ++ [v]).flatMap (fun w => [.write .scRho (fun _ => w), .record .movieRho 0]))).shown .movieRho
      = List.replicate (vs.length + 1) v := by
  have key : ∀ (vs : List (List V)), ∀ m : ArrMem V,
      (∀ p ∈ m.rec' .movieRho, p = m.env .scRho) →
      let m' := m.run (vs.flatMap (fun w => [.write .scRho (fun _ => w), .record .movieRho 0]))
      m'.env .scRho = m.env .scRho ∧ (∀ p ∈ m'.rec' .movieRho, p = m'.env .scRho) ∧
        (m'.rec' .movieRho).length = (m.rec' .movieRho).length + vs.length := by
    intro vs
    induction vs with
    | nil => intro m h; exact ⟨rfl, h, rfl⟩
    | cons w ws ih =>
      intro m h
      have h1 : ∀ p ∈ ((m.step (.write .scRho (fun _ => w))).step (.record .movieRho 0)).rec' .movieRho,
          p = ((m.step (.write .scRho (fun _ => w))).step (.record .movieRho 0)).env .scRho := by
        intro p hp
        simp only [ArrMem.step, Recorder.src, Bool.false_eq_true, if_false, if_true, List.mem_append, List.mem_singleton] at hp ⊢
        rcases hp with hp | hp
        · exact h p hp
        · exact hp
      obtain ⟨e1, e2, e3⟩ := ih _ h1
      refine ⟨e1.trans ?_, e2, e3.trans ?_⟩
      · simp [ArrMem.step, Recorder.src]
      · simp [ArrMem.step, Recorder.src]; omega
  have hk := key (vs ++ [v]) m (by simp [hm.none])
  obtain ⟨h1, h2, h3⟩ := hk
  rw [List.eq_replicate_iff]
  refine ⟨by rw [ArrMem.shown, List.length_map, h3]; simp [hm.none], fun w hw => ?_⟩
  obtain ⟨p, hp, rfl⟩ := List.mem_map.1 hw
  rw [h2 p hp]
  have : ((vs ++ [v]).flatMap (fun w => [ArrOp.write .scRho (fun _ => w), ArrOp.record .movieRho 0]))
      = vs.flatMap (fun w => [ArrOp.write .scRho (fun _ => w), ArrOp.record .movieRho 0]) ++
        [ArrOp.write .scRho (fun _ => v), ArrOp.record .movieRho 0] := by rw [List.flatMap_append]; rfl
  rw [this, ArrMem.run, List.foldl_append]
  simp [ArrMem.step, Recorder.src]

/-- A memory at the start. -/
def memToy : ArrMem ℕ := ⟨fun _ => [5, 6, 7], 0, .start, fun _ => []⟩

theorem memToy_fresh : memToy.Fresh := ⟨fun _ => rfl, rfl, fun _ => rfl⟩

/-- Positions kept before the tracking, histogram recorded and reset, density of a cloud recorded and replaced, solver overwriting. -/
def opsToy : List (ArrOp ℕ) :=
  [.record (.oldPos 0 0) 2, .write (.mp 0 0) (fun v => (v (.mp 0 0)).map (· + 1)), .record (.oldPos 0 0) 3, .record (.impTot 0) 0,
    .write (.impTot 0) (fun _ => [0, 0, 0]), .write .scRho (fun _ => [8]), .bind (.cloudRho 0) (fun v => v .scRho),
    .record (.movieCloud 0) 0, .record .movieRho 0, .write .scRho (fun _ => [9]), .bind (.cloudRho 0) (fun v => v .scRho),
    .record (.movieCloud 0) 0, .record .movieRho 0, .record .trackRho 0]

example : (∀ op ∈ opsToy, op.occurs) ∧ (memToy.run opsToy).shown (.oldPos 0 0) = [[5, 6], [6, 7, 8]] ∧
    (memToy.run opsToy).shown (.impTot 0) = [[5, 6, 7]] ∧ (memToy.run opsToy).val (.impTot 0) = [0, 0, 0] ∧
    (memToy.run opsToy).shown (.movieCloud 0) = [[8], [9]] ∧ (memToy.run opsToy).shown .movieRho = [[9], [9]] := by
  refine ⟨?_, by decide +kernel, by decide +kernel, by decide +kernel, by decide +kernel, by decide +kernel⟩
  intro op hop
  simp only [opsToy, List.mem_cons, List.not_mem_nil, or_false] at hop
  rcases hop with h | h | h | h | h | h | h | h | h | h | h | h | h | h <;> subst h <;> exact trivial

/-- A solver that makes new arrays. -/
example : let ops : List (ArrOp ℕ) := [.bind .scRho (fun _ => [8]), .record .movieRho 0, .bind .scRho (fun v => v .scRho ++ [1]),
      .record .movieRho 0]
    (∀ f, .write .scRho f ∉ ops ∧ .write .scEx f ∉ ops ∧ .write .scEy f ∉ ops) ∧ (memToy.run ops).shown .movieRho = [[8], [8, 1]] := by
  exact ⟨fun f => by simp, by decide +kernel⟩

end PyECLOUD
