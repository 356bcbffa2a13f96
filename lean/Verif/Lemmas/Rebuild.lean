import Verif.Lemmas.RegenLoop

set_option linter.unusedSectionVars false

namespace PyECLOUD

variable {K : Type} [Field K] [LinearOrder K] [FloorRing K]

/-- the occupied cells of a state, as linear indices -/
def MPs.occCells (s : MPs K) (c : FullCfg K) (xm : K) : List ℤ :=
  occupied (s.indexes c (stepsOf c s xm))

/-- their charges -/
def MPs.occDens (s : MPs K) (c : FullCfg K) (xm : K) : List K :=
  (s.occCells c xm).map (cellDens ((s.indexes c (stepsOf c s xm)).zip (s.arr .nel)))

/-- macroparticle counts drawn for them -/
def MPs.occCounts (s : MPs K) (c : FullCfg K) (xm : K) (d : FullDraws K) : List ℕ :=
  cellCounts (s.occDens c xm) s.ref d.rest

/-- the arrays at the start of the regeneration loop -/
def MPs.zeroed (s : MPs K) : Fld → List K := fun f =>
  if f = .tl then s.arr .tl else (s.arr f).map (fun _ => 0)

theorem rebuild_ok (s s' : MPs K) (c : FullCfg K) (xm : K) (d : FullDraws K)
    (hok : s.rebuild c xm d = .ok s') : ∃ nel arr,
      sliceAssign (s.zeroed .nel) 0 (s.occCounts c xm d).sum
        (.array (List.replicate (s.occCounts c xm d).sum s.ref)) = .ok nel ∧
      regenLoop c.outside (stepsOf c s xm) d.pass ((s.occCounts c xm d).foldr max 0) 0
        (((s.occCells c xm).map (fun i => centres c (stepsOf c s xm) (decode c i))).zip (s.occCounts c xm d))
        (Function.update s.zeroed .nel nel) 0 = .ok (arr, s'.nmp) ∧
      s' = { s with
        nmp := s'.nmp
        arr := fun f => if f = .tl ∧ s.lifetime = true then (s.arr .tl).map (fun _ => -1) else arr f } := by
  unfold MPs.rebuild at hok
  simp only at hok
  split at hok
  · simp at hok
  · next nel e1 =>
    split at hok
    · simp at hok
    · next arr nmp e2 =>
      simp only [Except.ok.injEq] at hok
      subst hok
      exact ⟨nel, arr, e1, e2, rfl⟩

theorem occCells_length (s : MPs K) (c : FullCfg K) (xm : K) (d : FullDraws K) :
    (s.occCounts c xm d).length = (s.occCells c xm).length := by
  simp [MPs.occCounts, cellCounts, MPs.occDens]

theorem rebuild_nmp (s s' : MPs K) (c : FullCfg K) (xm : K) (d : FullDraws K)
    (hok : s.rebuild c xm d = .ok s') : s'.nmp = (s.occCounts c xm d).sum := by
  obtain ⟨nel, arr, -, e2, -⟩ := rebuild_ok s s' c xm d hok
  have := (regenLoop_spec _ _ _ _ _ _ _ _ _ _ e2).1
  rwa [zip_snd_sum _ _ (by rw [List.length_map, occCells_length]), Nat.zero_add] at this

/-- sizes after the rebuild -/
theorem rebuild_nel (s s' : MPs K) (h : s.WF) (hc0 : 0 < s.cap) (c : FullCfg K) (xm : K) (d : FullDraws K)
    (hok : s.rebuild c xm d = .ok s') :
    s'.arr .nel = List.replicate s'.nmp s.ref ++ List.replicate (s.cap - s'.nmp) 0 := by
  have hn := rebuild_nmp s s' c xm d hok
  have hwf := rebuild_wf s s' h hc0 c xm d hok
  have hfit : s'.nmp ≤ s.cap := by have := hwf.1.fits; rwa [hwf.2] at this
  obtain ⟨nel, arr, e1, e2, e3⟩ := rebuild_ok s s' c xm d hok
  rw [← hn] at e1
  rw [sliceAssign_array _ _ 0 s'.nmp (Nat.zero_le _) (by simp [MPs.zeroed, h.len]; exact hfit) (by simp)] at e1
  simp only [Except.ok.injEq] at e1
  have hkeep : arr .nel = nel := by
    have : ∀ (fuel k : ℕ) (cells : List (Steps K × ℕ)) (a a' : Fld → List K) (m m' : ℕ),
        regenLoop c.outside (stepsOf c s xm) d.pass fuel k cells a m = .ok (a', m') → a' .nel = a .nel := by
      intro fuel
      induction fuel with
      | zero =>
        intro k cells a a' m m' hr
        unfold regenLoop at hr
        simp only at hr
        split at hr
        · simp only [Except.ok.injEq, Prod.mk.injEq] at hr; rw [hr.1]
        · simp at hr
      | succ fuel ih =>
        intro k cells a a' m m' hr
        unfold regenLoop at hr
        simp only at hr
        split at hr
        · simp only [Except.ok.injEq, Prod.mk.injEq] at hr; rw [hr.1]
        · split at hr
          · simp at hr
          · split at hr
            · simp at hr
            · next a1 ea =>
              rw [ih _ _ _ _ _ _ hr]
              have : ∀ (fs : List Fld) (a a1 : Fld → List K) (lo hi : ℕ) (src : Fld → Src K), .nel ∉ fs →
                  assignAll a fs lo hi src = .ok a1 → a1 .nel = a .nel := by
                intro fs
                induction fs with
                | nil => intro a a1 lo hi src _ h; simp only [assignAll, Except.ok.injEq] at h; rw [h]
                | cons f fs ihf =>
                  intro a a1 lo hi src hnf h
                  unfold assignAll at h
                  split at h
                  · simp at h
                  · rw [ihf _ _ _ _ _ (fun hh => hnf (by simp [hh])) h, Function.update_of_ne]
                    intro hh; exact hnf (by simp [hh])
              exact this _ _ _ _ _ _ (by decide) ea
    rw [this _ _ _ _ _ _ _ e2, Function.update_self]
  rw [e3]
  show (if Fld.nel = .tl ∧ s.lifetime = true then (s.arr .tl).map (fun _ => (-1 : K)) else arr .nel) = _
  rw [if_neg (by simp), hkeep, ← e1]
  simp only [MPs.zeroed, reduceCtorEq, if_false, List.take_zero, List.nil_append]
  congr 1
  rw [← List.map_drop, List.map_const', List.length_drop, h.len]

theorem rebuild_zeroTail (s s' : MPs K) (h : s.WF) (hc0 : 0 < s.cap) (c : FullCfg K) (xm : K) (d : FullDraws K)
    (hok : s.rebuild c xm d = .ok s') : s'.ZeroTail := by
  intro i hi
  rw [rebuild_nel s s' h hc0 c xm d hok, List.getD_eq_getElem?_getD,
    List.getElem?_append_right (by simpa using hi), List.getElem?_replicate]
  split <;> rfl

variable [IsStrictOrderedRing K]

theorem rebuild_content (s s' : MPs K) (h : s.WF) (hc0 : 0 < s.cap) (c : FullCfg K) (xm : K) (d : FullDraws K)
    (hu : ∀ k, (d.pass k).Unit) (hst : (stepsOf c s xm).Nonneg)
    (hok : s.rebuild c xm d = .ok s') :
    ∃ G : List (Steps K × Particle K),
      (G.map (·.1)).Perm ((((s.occCells c xm).map (fun i => centres c (stepsOf c s xm) (decode c i))).zip
        (s.occCounts c xm d)).flatMap (fun c => List.replicate c.2 c.1)) ∧
      (∀ g ∈ G, c.outside (g.2 .x) (g.2 .y) = false ∧ NearCentre (stepsOf c s xm) g.1 g.2 ∧
        g.2 .z = 0 ∧ g.2 .nel = s.ref ∧ g.2 .tl = -1) ∧
      s'.live = G.map (·.2) := by
  have hn := rebuild_nmp s s' c xm d hok
  have hwf := rebuild_wf s s' h hc0 c xm d hok
  have hnel := rebuild_nel s s' h hc0 c xm d hok
  have hfit : s'.nmp ≤ s.cap := by have := hwf.1.fits; rwa [hwf.2] at this
  obtain ⟨nel, arr, e1, e2, e3⟩ := rebuild_ok s s' c xm d hok
  have hne : ∀ f ∈ passFields, f ≠ .nel ∧ f ≠ .tl := by decide
  obtain ⟨G, g1, g2, g3, g4⟩ := regenLoop_content _ _ hst _ hu _ _ _ _ _ _ _ (by
    intro f hf
    rw [Nat.zero_add, zip_snd_sum _ _ (by rw [List.length_map, occCells_length]), ← hn,
      Function.update_of_ne (hne f hf).1]
    simp only [MPs.zeroed, (hne f hf).2, if_false, List.length_map, h.len]
    exact hfit) e2
  have hGl : G.length = s'.nmp := by
    have h1 := congrArg List.length (g3 .x (by decide))
    have h2 := (regenLoop_spec _ _ _ _ _ _ _ _ _ _ e2).2 .x
    simp only [List.length_take, List.take_zero, List.nil_append, List.length_map] at h1
    rw [h2, Function.update_of_ne (by decide)] at h1
    simp only [MPs.zeroed, reduceCtorEq, if_false, List.length_map, h.len] at h1
    omega
  have hz : arr .z = List.replicate s.cap 0 := by
    rw [g4 .z (by decide), Function.update_of_ne (by decide)]
    simp only [MPs.zeroed, reduceCtorEq, if_false, List.map_const', h.len]
  refine ⟨G.map (fun g => (g.1, fun f => if f ∈ passFields then g.2 f else if f = .nel then s.ref
      else if f = .z then 0 else -1)), ?_, ?_, ?_⟩
  · rw [List.map_map]
    exact g1
  · intro g hg
    obtain ⟨g0, hg0, rfl⟩ := List.mem_map.1 hg
    obtain ⟨q1, q2⟩ := g2 g0 hg0
    refine ⟨by simpa [passFields] using q1, ⟨?_, ?_, ?_, ?_, ?_⟩, by simp [passFields], by simp [passFields],
      by simp [passFields]⟩
    · simpa [passFields] using q2.x
    · simpa [passFields] using q2.y
    · simpa [passFields] using q2.vx
    · simpa [passFields] using q2.vy
    · simpa [passFields] using q2.vz
  · apply particles_ext
    intro f
    rw [live_col _ f (by rw [hwf.1.len]; exact hwf.1.fits), List.map_map, List.map_map]
    have harr : s'.arr f = if f = .tl ∧ s.lifetime = true then (s.arr .tl).map (fun _ => -1) else arr f := by
      conv_lhs => rw [e3]
    have hlt : s'.lifetime = s.lifetime := by rw [e3]
    by_cases hf : f ∈ passFields
    · have htr : s'.tracked f = true := by simp [MPs.tracked, (hne f hf).2]
      rw [htr, if_pos rfl, harr, if_neg (fun hh => (hne f hf).2 hh.1), g3 f hf]
      simp only [List.take_zero, List.nil_append]
      apply List.map_congr_left
      intro g _
      simp [hf]
    · have hrep : G.map (((fun p : Particle K => p f) ∘ (fun x : Steps K × Particle K => x.2)) ∘
          fun g => (g.1, fun f => if f ∈ passFields then g.2 f else if f = .nel then s.ref
            else if f = .z then 0 else -1)) = List.replicate s'.nmp
            (if f = .nel then s.ref else if f = .z then 0 else -1) := by
        rw [← hGl]
        apply List.ext_getElem
        · simp
        · intro i h1 h2; simp [hf]
      rw [hrep]
      cases f
      case nel =>
        simp only [MPs.tracked, bne_iff_ne, ne_eq, reduceCtorEq, not_false_eq_true, Bool.or_eq_true, true_or, if_true]
        rw [hnel, List.take_append_of_le_length (by simp), List.take_of_length_le (by simp)]
      case z =>
        have ht : s'.tracked .z = true := rfl
        rw [ht, harr]
        simp only [if_true, reduceCtorEq, false_and, if_false]
        rw [hz, List.take_replicate]
        congr 1
        omega
      case tl =>
        by_cases hl : s.lifetime = true
        · have : s'.tracked .tl = true := by simp [MPs.tracked, hlt, hl]
          rw [harr]
          simp only [this, if_true, reduceCtorEq, if_false, hl, and_self]
          rw [List.map_const', List.take_replicate, h.len]
          congr 1
          omega
        · have : s'.tracked .tl = false := by simpa [MPs.tracked, hlt] using hl
          simp [this]
      all_goals exact absurd (by decide) hf

end PyECLOUD
