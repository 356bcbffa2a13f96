import Verif.Lemmas.Regen

set_option linter.unusedSectionVars false

namespace PyECLOUD

variable {K : Type} [Field K] [LinearOrder K] [FloorRing K]

theorem mem_passFields (f : Fld) : f ∈ passFields ↔ f = .x ∨ f = .y ∨ f = .vx ∨ f = .vy ∨ f = .vz := by
  simp [passFields]

section strict

variable [IsStrictOrderedRing K]

theorem near_draw (c s u : K) (hs : 0 ≤ s) (hu : InUnit u) : |c + s * (u - 1 / 2) - c| ≤ s / 2 := by
  obtain ⟨h0, h1⟩ := hu
  rw [add_sub_cancel_left, abs_mul, abs_of_nonneg hs]
  have : |u - 1 / 2| ≤ 1 / 2 := by rw [abs_le]; constructor <;> linarith
  nlinarith

structure Steps.Nonneg (st : Steps K) : Prop where
  x : 0 ≤ st.x
  y : 0 ≤ st.y
  vx : 0 ≤ st.vx
  vy : 0 ≤ st.vy
  vz : 0 ≤ st.vz

theorem passPoints_spec (o : K → K → Bool) (st : Steps K) (hst : st.Nonneg) (cs : List (Steps K))
    (d : PassDraws K) (hd : d.Unit) (cols : Fld → List K) (h : passPoints o st cs d = .ok cols) :
    ∃ G : List (Steps K × Particle K), G.map (·.1) = cs ∧
      (∀ g ∈ G, o (g.2 .x) (g.2 .y) = false ∧ NearCentre st g.1 g.2) ∧
      ∀ f ∈ passFields, cols f = G.map (fun g => g.2 f) := by
  unfold passPoints at h
  split at h
  · simp at h
  · next pts e =>
    simp only [Except.ok.injEq] at h
    have hf := rejectLoop_fst _ _ _ _ _ e
    have hin := rejectLoop_inside _ _ _ _ _ e
    have hnear := rejectLoop_pred o (cellGen st)
      (fun p => |p.2.1 - p.1.x| ≤ st.x / 2 ∧ |p.2.2 - p.1.y| ≤ st.y / 2) d.rounds
      (fun r hr i c => ⟨near_draw _ _ _ hst.x (hd.rx r hr i), near_draw _ _ _ hst.y (hd.ry r hr i)⟩)
      _ _ (by
        intro p hp
        rw [List.mem_mapIdx] at hp
        obtain ⟨i, hi, rfl⟩ := hp
        exact ⟨near_draw _ _ _ hst.x (hd.x0 i), near_draw _ _ _ hst.y (hd.y0 i)⟩) e
    have hf' : pts.map (·.1) = cs := by
      rw [hf]
      apply List.ext_getElem
      · simp
      · intro i h1 h2; simp
    refine ⟨pts.mapIdx (fun i p => (p.1, fun f => match f with
      | .x => p.2.1
      | .y => p.2.2
      | .vx => p.1.vx + st.vx * (d.vx i - 1 / 2)
      | .vy => p.1.vy + st.vy * (d.vy i - 1 / 2)
      | .vz => p.1.vz + st.vz * (d.vz i - 1 / 2)
      | _ => 0)), ?_, ?_, ?_⟩
    · rw [← hf']
      apply List.ext_getElem
      · simp
      · intro i h1 h2; simp
    · intro g hg
      rw [List.mem_mapIdx] at hg
      obtain ⟨i, hi, rfl⟩ := hg
      have hm := List.getElem_mem hi
      exact ⟨hin _ hm, ⟨(hnear _ hm).1, (hnear _ hm).2, near_draw _ _ _ hst.vx (hd.vx i),
        near_draw _ _ _ hst.vy (hd.vy i), near_draw _ _ _ hst.vz (hd.vz i)⟩⟩
    · intro f hfm
      subst h
      have hlen : pts.length = cs.length := by rw [← hf']; simp
      have hget : ∀ i (h1 : i < cs.length) (h2 : i < pts.length), cs[i] = pts[i].1 := by
        intro i h1 h2; simp [← hf']
      rw [mem_passFields] at hfm
      apply List.ext_getElem
      · rcases hfm with rfl | rfl | rfl | rfl | rfl <;> simp [hlen]
      · intro i h1 h2
        have h3 : i < pts.length := by simpa using h2
        have h4 : i < cs.length := by omega
        rcases hfm with rfl | rfl | rfl | rfl | rfl <;> simp [hget i h4 h3]

end strict

theorem count_step (cells : List (Steps K × ℕ)) :
    (cells.filter (fun c => decide (0 < c.2))).length
      + ((cells.map (fun c => (c.1, c.2 - 1))).map (·.2)).sum = (cells.map (·.2)).sum := by
  induction cells with
  | nil => rfl
  | cons a l ihl =>
    by_cases ha : 0 < a.2
    · simp [ha] at ihl ⊢; omega
    · simp [ha] at ihl ⊢; omega

theorem replicate_perm (cells : List (Steps K × ℕ)) :
    (cells.flatMap (fun c => List.replicate c.2 c.1)).Perm
      ((cells.filter (fun c => decide (0 < c.2))).map (·.1) ++
        (cells.map (fun c => (c.1, c.2 - 1))).flatMap (fun c => List.replicate c.2 c.1)) := by
  induction cells with
  | nil => simp
  | cons a l ih =>
    obtain ⟨c, n⟩ := a
    cases n with
    | zero => simpa using ih
    | succ n =>
      simp only [List.flatMap_cons, List.replicate_succ, List.cons_append, List.map_cons, Nat.add_sub_cancel,
        List.filter_cons, Nat.zero_lt_succ, decide_true, if_true]
      apply List.Perm.cons
      calc (List.replicate n c ++ l.flatMap (fun c => List.replicate c.2 c.1)).Perm
            (List.replicate n c ++ ((l.filter (fun c => decide (0 < c.2))).map (·.1) ++
              (l.map (fun c => (c.1, c.2 - 1))).flatMap (fun c => List.replicate c.2 c.1))) := by
            exact List.Perm.append_left _ ih
        _ |>.Perm _ := by
            rw [← List.append_assoc, ← List.append_assoc]
            exact List.Perm.append_right _ List.perm_append_comm

variable [IsStrictOrderedRing K]

theorem regenLoop_content (o : K → K → Bool) (st : Steps K) (hst : st.Nonneg) (pass : ℕ → PassDraws K)
    (hu : ∀ k, (pass k).Unit) (fuel k : ℕ) (cells : List (Steps K × ℕ)) (arr : Fld → List K) (nmp : ℕ)
    (arr' : Fld → List K) (nmp' : ℕ)
    (hlen : ∀ f ∈ passFields, nmp + (cells.map (·.2)).sum ≤ (arr f).length)
    (h : regenLoop o st pass fuel k cells arr nmp = .ok (arr', nmp')) :
    ∃ G : List (Steps K × Particle K),
      (G.map (·.1)).Perm (cells.flatMap (fun c => List.replicate c.2 c.1)) ∧
      (∀ g ∈ G, o (g.2 .x) (g.2 .y) = false ∧ NearCentre st g.1 g.2) ∧
      (∀ f ∈ passFields, (arr' f).take nmp' = (arr f).take nmp ++ G.map (fun g => g.2 f)) ∧
      (∀ f, f ∉ passFields → arr' f = arr f) := by
  have base : ∀ (cells : List (Steps K × ℕ)), (cells.filter (fun c => decide (0 < c.2))).length = 0 →
      cells.flatMap (fun c => List.replicate c.2 c.1) = [] := by
    intro cells h0
    rw [List.flatMap_eq_nil_iff]
    intro c hc
    have : c.2 = 0 := by
      by_contra hne
      have : c ∈ cells.filter (fun c => decide (0 < c.2)) := by
        simp [hc]; omega
      rw [List.length_eq_zero_iff.1 h0] at this
      simp at this
    simp [this]
  induction fuel generalizing k cells arr nmp with
  | zero =>
    unfold regenLoop at h
    simp only at h
    split at h
    · next h0 =>
      simp only [Except.ok.injEq, Prod.mk.injEq] at h
      obtain ⟨rfl, rfl⟩ := h
      exact ⟨[], by simp [base cells h0], by simp, by simp, fun _ _ => rfl⟩
    · simp at h
  | succ fuel ih =>
    unfold regenLoop at h
    simp only at h
    split at h
    · next h0 =>
      simp only [Except.ok.injEq, Prod.mk.injEq] at h
      obtain ⟨rfl, rfl⟩ := h
      exact ⟨[], by simp [base cells h0], by simp, by simp, fun _ _ => rfl⟩
    · split at h
      · simp at h
      · next cols e1 =>
        obtain ⟨G1, g1, g2, g3⟩ := passPoints_spec o st hst _ (pass k) (hu k) cols e1
        have hG1 : G1.length = (cells.filter (fun c => decide (0 < c.2))).length := by
          have := congrArg List.length g1; simpa using this
        have hsum : (cells.filter (fun c => decide (0 < c.2))).length
            + ((cells.map (fun c => (c.1, c.2 - 1))).map (·.2)).sum = (cells.map (·.2)).sum := count_step cells
        split at h
        · simp at h
        · next arr1 e2 =>
          rw [assignAll_ok arr passFields (by decide) _ _ _ (by
              intro f hf
              rw [Src.Fits, g3 f hf]; simpa using hG1)
            (by
              intro f hf
              have := hlen f hf
              omega)] at e2
          simp only [Except.ok.injEq] at e2
          have hnmp : ∀ f ∈ passFields, nmp ≤ (arr f).length := fun f hf => by
            have := hlen f hf; omega
          have hlen1 : ∀ f ∈ passFields, (arr1 f).length = (arr f).length := by
            intro f hf
            have := hlen f hf
            rw [← e2]
            simp only [hf, if_true, Src.expand, g3 f hf, List.length_append, List.length_take,
              List.length_map, List.length_drop, hG1]
            omega
          obtain ⟨G2, p1, p2, p3, p4⟩ := ih (k + 1) _ _ _ (by
            intro f hf
            rw [hlen1 f hf]
            have := hlen f hf
            omega) h
          refine ⟨G1 ++ G2, ?_, ?_, ?_, ?_⟩
          · rw [List.map_append, g1]
            exact (List.Perm.append_left _ p1).trans (replicate_perm cells).symm
          · intro g hg
            rcases List.mem_append.1 hg with hg | hg
            · exact g2 g hg
            · exact p2 g hg
          · intro f hf
            rw [p3 f hf, ← e2]
            simp only [hf, if_true, Src.expand, g3 f hf]
            rw [block_take _ _ _ _ _ (hnmp f hf) (by simpa using hG1), List.map_append, List.append_assoc]
          · intro f hf
            rw [p4 f hf, ← e2]
            simp [hf]

/-- the regeneration loop never needs more passes than the largest count -/
theorem regenLoop_not_stuck (o : K → K → Bool) (st : Steps K) (pass : ℕ → PassDraws K)
    (fuel k : ℕ) (cells : List (Steps K × ℕ)) (arr : Fld → List K) (nmp : ℕ)
    (hf : ∀ c ∈ cells, c.2 ≤ fuel)
    (hp : ∀ k cs, ∃ cols, passPoints o st cs (pass k) = .ok cols)
    (hlen : ∀ f ∈ passFields, nmp + (cells.map (·.2)).sum ≤ (arr f).length) :
    ∃ r, regenLoop o st pass fuel k cells arr nmp = .ok r := by
  induction fuel generalizing k cells arr nmp with
  | zero =>
    unfold regenLoop
    simp only
    rw [if_pos]
    · exact ⟨_, rfl⟩
    · rw [List.length_eq_zero_iff, List.filter_eq_nil_iff]
      intro c hc
      have := hf c hc
      simp; omega
  | succ fuel ih =>
    unfold regenLoop
    simp only
    split
    · exact ⟨_, rfl⟩
    · obtain ⟨cols, hc⟩ := hp k ((cells.filter (fun c : Steps K × ℕ => decide (0 < c.2))).map (fun x => x.1))
      rw [hc]
      simp only
      have hcl : ∀ f ∈ passFields, (cols f).length = (cells.filter (fun c => decide (0 < c.2))).length := by
        intro f hfm
        unfold passPoints at hc
        split at hc
        · simp at hc
        · next pts e =>
          have hl := rejectLoop_length _ _ _ _ _ e
          simp only [Except.ok.injEq] at hc
          subst hc
          rw [mem_passFields] at hfm
          rcases hfm with rfl | rfl | rfl | rfl | rfl <;> simp [hl]
      have hsum : (cells.filter (fun c => decide (0 < c.2))).length
            + ((cells.map (fun c => (c.1, c.2 - 1))).map (·.2)).sum = (cells.map (·.2)).sum := count_step cells
      rw [assignAll_ok arr passFields (by decide) _ _ _ (by
              intro f hf
              rw [Src.Fits, hcl f hf])
            (by
              intro f hf
              have := hlen f hf
              omega)]
      simp only
      apply ih
      · intro c hc
        obtain ⟨c0, hc0, rfl⟩ := List.mem_map.1 hc
        have := hf c0 hc0
        simp; omega
      · intro f hf
        have h1 := hlen f hf
        have h2 := hcl f hf
        simp only [hf, if_true, Src.expand, List.length_append, List.length_take, List.length_drop, h2]
        omega

end PyECLOUD
