import Verif.Lemmas.MPHistory
import Verif.Spec.History

set_option linter.unusedSectionVars false

namespace PyECLOUD

variable {K : Type} [Field K]

theorem assignAll_len (arr arr' : Fld → List K) (fs : List Fld) (lo hi : ℕ) (src : Fld → Src K)
    (h : assignAll arr fs lo hi src = .ok arr') (f : Fld) : (arr' f).length = (arr f).length := by
  induction fs generalizing arr with
  | nil => simp only [assignAll, Except.ok.injEq] at h; subst h; rfl
  | cons g fs ih =>
    unfold assignAll at h
    split at h
    · simp at h
    · next l e =>
      rw [ih _ h]
      by_cases hg : f = g
      · subst hg; simp [sliceAssign_length _ _ _ _ _ e]
      · rw [Function.update_of_ne hg]

/-- a successful assignment of `n ≠ 1` values fits -/
theorem sliceAssign_array_fits {α : Type} (a l r : List α) (lo n : ℕ) (hlo : lo ≤ a.length) (hl : l.length = n)
    (h1 : n = 1 → lo < a.length) (h : sliceAssign a lo (lo + n) (.array l) = .ok r) :
    lo + n ≤ a.length := by
  unfold sliceAssign at h
  simp only at h
  split at h
  · next e => omega
  · split at h
    · next v e => simp only [List.length_singleton] at hl; have := h1 hl.symm; omega
    · simp at h

theorem assignAll_head_ok (arr arr' : Fld → List K) (f : Fld) (fs : List Fld) (lo hi : ℕ) (src : Fld → Src K)
    (h : assignAll arr (f :: fs) lo hi src = .ok arr') : ∃ r, sliceAssign (arr f) lo hi (src f) = .ok r := by
  unfold assignAll at h
  split at h
  · simp at h
  · next l e => exact ⟨l, e⟩

variable [LinearOrder K]

theorem addNew_wf (s s' : MPs K) (h : s.WF) (n : ℕ) (src : Fld → Src K) (l : List K)
    (hx : src .x = .array l) (hl : l.length = n) (h1 : n = 1 → s.nmp < s.cap)
    (hok : s.addNew n src = .ok s') : s'.WF ∧ s'.cap = s.cap := by
  unfold MPs.addNew at hok
  split at hok
  · simp at hok
  · next arr e =>
    simp only [Except.ok.injEq] at hok
    subst hok
    have hlen := assignAll_len _ _ _ _ _ _ e
    obtain ⟨r, hr⟩ := assignAll_head_ok _ _ .x _ _ _ _ e
    rw [hx] at hr
    have := sliceAssign_array_fits _ _ _ _ _ h.fits hl h1 hr
    have hc : (MPs.cap { s with arr := arr, nmp := s.nmp + n }) = s.cap := hlen .x
    refine ⟨⟨fun f => ?_, ?_⟩, hc⟩
    · rw [hc]; exact (hlen f).trans (h.len f)
    · rw [hc]; exact this

variable [FloorRing K]

theorem rejectLoop_length {α : Type} (o : K → K → Bool) (g : α → K → K → K × K)
    (rounds : List ((ℕ → K) × (ℕ → K))) (pts r : List (α × K × K))
    (h : rejectLoop o g rounds pts = .ok r) : r.length = pts.length := by
  induction rounds generalizing pts with
  | nil =>
    unfold rejectLoop at h
    split at h
    · simp only [Except.ok.injEq] at h; subst h; rfl
    · simp at h
  | cons d ds ih =>
    unfold rejectLoop at h
    split at h
    · simp only [Except.ok.injEq] at h; subst h; rfl
    · simp only at h
      rw [ih _ h]; simp [redraw]

/-- every point of a rejection loop stays with its kind and ends at the first of its draws that is inside -/
theorem rejectLoop_first {α : Type} (o : K → K → Bool) (g : α → K → K → K × K)
    (rounds : List ((ℕ → K) × (ℕ → K))) (pts r : List (α × K × K))
    (h : rejectLoop o g rounds pts = .ok r) (i : ℕ) (a : α × K × K) (ha : pts[i]? = some a) :
    ∃ q, r[i]? = some (a.1, q) ∧
      (a.2 :: rounds.map (fun d => g a.1 (d.1 i) (d.2 i))).find? (fun q => !o q.1 q.2) = some q := by
  have hdone : ∀ (pts : List (α × K × K)) (a : α × K × K) (l : List (K × K)), pts[i]? = some a →
      pts.all (fun p => !o p.2.1 p.2.2) = true →
      ∃ q, pts[i]? = some (a.1, q) ∧ (a.2 :: l).find? (fun q => !o q.1 q.2) = some q := by
    intro pts a l ha hall
    have := List.all_eq_true.1 hall a (List.mem_of_getElem? ha)
    exact ⟨a.2, ha, by simp only [List.find?_cons, this]⟩
  induction rounds generalizing pts a with
  | nil =>
    unfold rejectLoop at h
    split at h
    · next hall =>
      simp only [Except.ok.injEq] at h
      subst h
      exact hdone _ a _ ha hall
    · simp at h
  | cons d ds ih =>
    unfold rejectLoop at h
    split at h
    · next hall =>
      simp only [Except.ok.injEq] at h
      subst h
      exact hdone _ a _ ha hall
    · simp only at h
      by_cases ho : o a.2.1 a.2.2 = true
      · have h' : (redraw o g pts d.1 d.2)[i]? = some (a.1, g a.1 (d.1 i) (d.2 i)) := by
          simp [redraw, ha, ho]
        obtain ⟨q, q1, q2⟩ := ih _ h _ h'
        refine ⟨q, q1, ?_⟩
        simp only [List.map_cons]
        rw [List.find?_cons]
        simp only [ho, Bool.not_true]
        exact q2
      · have h' : (redraw o g pts d.1 d.2)[i]? = some a := by
          simp [redraw, ha, ho]
        obtain ⟨q, q1, q2⟩ := ih _ h _ h'
        refine ⟨q, q1, ?_⟩
        have hf : (!o a.2.1 a.2.2) = true := by simp [ho]
        rw [List.find?_cons] at q2 ⊢
        simp only [hf] at q2 ⊢
        exact q2

/-- every point returned by a rejection loop is inside -/
theorem rejectLoop_inside {α : Type} (o : K → K → Bool) (g : α → K → K → K × K)
    (rounds : List ((ℕ → K) × (ℕ → K))) (pts r : List (α × K × K))
    (h : rejectLoop o g rounds pts = .ok r) : ∀ p ∈ r, o p.2.1 p.2.2 = false := by
  induction rounds generalizing pts with
  | nil =>
    unfold rejectLoop at h
    split at h
    · next hall =>
      simp only [Except.ok.injEq] at h; subst h
      intro p hp
      have := List.all_eq_true.1 hall p hp
      simpa using this
    · simp at h
  | cons d ds ih =>
    unfold rejectLoop at h
    split at h
    · next hall =>
      simp only [Except.ok.injEq] at h; subst h
      intro p hp
      have := List.all_eq_true.1 hall p hp
      simpa using this
    · exact ih _ h

/-- a predicate holding for all generated points holds for the result of a rejection loop; the data
attached to the points never changes -/
theorem rejectLoop_pred {α : Type} (o : K → K → Bool) (g : α → K → K → K × K) (P : α × K × K → Prop)
    (rounds : List ((ℕ → K) × (ℕ → K)))
    (hP : ∀ r ∈ rounds, ∀ i c, P (c, g c (r.1 i) (r.2 i)))
    (pts r : List (α × K × K)) (h0 : ∀ p ∈ pts, P p)
    (h : rejectLoop o g rounds pts = .ok r) : ∀ p ∈ r, P p := by
  induction rounds generalizing pts with
  | nil =>
    unfold rejectLoop at h
    split at h
    · simp only [Except.ok.injEq] at h; subst h; exact h0
    · simp at h
  | cons d ds ih =>
    unfold rejectLoop at h
    split at h
    · simp only [Except.ok.injEq] at h; subst h; exact h0
    · refine ih (fun r hr => hP r (by simp [hr])) _ ?_ h
      intro p hp
      simp only [redraw, List.mem_mapIdx] at hp
      obtain ⟨i, hi, rfl⟩ := hp
      split
      · exact hP d (by simp) i _
      · exact h0 _ (List.getElem_mem _)

theorem rejectLoop_fst {α : Type} (o : K → K → Bool) (g : α → K → K → K × K)
    (rounds : List ((ℕ → K) × (ℕ → K))) (pts r : List (α × K × K))
    (h : rejectLoop o g rounds pts = .ok r) : r.map (·.1) = pts.map (·.1) := by
  induction rounds generalizing pts with
  | nil =>
    unfold rejectLoop at h
    split at h
    · simp only [Except.ok.injEq] at h; subst h; rfl
    · simp at h
  | cons d ds ih =>
    unfold rejectLoop at h
    split at h
    · simp only [Except.ok.injEq] at h; subst h; rfl
    · rw [ih _ h]
      apply List.ext_getElem
      · simp [redraw]
      · intro i h1 h2
        simp only [redraw, List.getElem_map, List.getElem_mapIdx]
        split <;> rfl

theorem addUniform_wf (s s' : MPs K) (h : s.WF) (hn : s.nmp < s.cap) (o : K → K → Bool) (r : Rect K) (v q : K)
    (d : UniDraws K) (hok : s.addUniform o r v q d = .ok s') : s'.WF ∧ s'.cap = s.cap := by
  unfold MPs.addUniform at hok
  simp only at hok
  split at hok
  · split at hok
    · simp at hok
    · next pts ep =>
      have hpl := rejectLoop_length _ _ _ _ _ ep
      split at hok
      · simp at hok
      · next arr1 e1 =>
        split at hok
        · simp at hok
        · next arr2 e2 =>
          simp only [Except.ok.injEq] at hok
          subst hok
          have hlen1 := assignAll_len _ _ _ _ _ _ e1
          have hlen2 : ∀ f, (arr2 f).length = (arr1 f).length := by
            intro f
            split at e2
            · exact assignAll_len _ _ _ _ _ _ e2 f
            · simp only [Except.ok.injEq] at e2; subst e2; rfl
          obtain ⟨r', hr⟩ := assignAll_head_ok _ _ .x _ _ _ _ e1
          have := sliceAssign_array_fits _ _ _ _ _ h.fits (by simpa using hpl) (fun _ => hn) hr
          set n := (stochRound (q / s.ref) d.u).toNat with hnd
          have hc : (MPs.cap { s with arr := arr2, nmp := s.nmp + n }) = s.cap := (hlen2 .x).trans (hlen1 .x)
          refine ⟨⟨fun f => ?_, ?_⟩, hc⟩
          · rw [hc]; exact ((hlen2 f).trans (hlen1 f)).trans (h.len f)
          · rw [hc]; exact this
  · simp only [Except.ok.injEq] at hok
    subst hok
    exact ⟨h, rfl⟩

theorem addDensity_wf (s s' : MPs K) (h : s.WF) (hn : s.nmp < s.cap) (o : K → K → Bool) (r : Rect K) (v q : K)
    (d : UniDraws K) (hok : s.addDensity o r v q d = .ok s') : s'.WF ∧ s'.cap = s.cap := by
  unfold MPs.addDensity at hok
  simp only at hok
  split at hok
  · simp at hok
  · next arr1 e1 =>
    split at hok
    · simp at hok
    · next arr2 e2 =>
      simp only [Except.ok.injEq] at hok
      subst hok
      set pts := (List.filter (fun p => !o p.2.1 p.2.2)
              (List.map (fun i => ((), uniGen r.xMax r.xMin r.yMax r.yMin () (d.x0 i) (d.y0 i)))
                (List.range (stochRound (q * (r.xMax - r.xMin) * (r.yMax - r.yMin) / s.ref) d.u).toNat))) with hp
      have hlen1 : ∀ f, (arr1 f).length = (s.arr f).length := by
        intro f
        split at e1
        · exact assignAll_len _ _ _ _ _ _ e1 f
        · simp only [Except.ok.injEq] at e1; subst e1; rfl
      have hlen2 : ∀ f, (arr2 f).length = (arr1 f).length := by
        intro f
        split at e2
        · exact assignAll_len _ _ _ _ _ _ e2 f
        · simp only [Except.ok.injEq] at e2; subst e2; rfl
      have hfit : s.nmp + pts.length ≤ s.cap := by
        split at e1
        · obtain ⟨r', hr⟩ := assignAll_head_ok _ _ .x _ _ _ _ e1
          exact sliceAssign_array_fits _ _ _ _ _ h.fits (by simp) (fun _ => hn) hr
        · next h0 =>
          have : pts.length = 0 := by
            have hz : (stochRound (q * (r.xMax - r.xMin) * (r.yMax - r.yMin) / s.ref) d.u).toNat = 0 := by omega
            simp [hp, hz]
          rw [this]; exact h.fits
      have hc : (MPs.cap { s with arr := arr2, nmp := s.nmp + pts.length }) = s.cap :=
        (hlen2 .x).trans (hlen1 .x)
      refine ⟨⟨fun f => ?_, ?_⟩, hc⟩
      · rw [hc]; exact ((hlen2 f).trans (hlen1 f)).trans (h.len f)
      · rw [hc]; exact hfit

theorem regenLoop_spec (o : K → K → Bool) (st : Steps K) (pass : ℕ → PassDraws K) (fuel k : ℕ)
    (cells : List (Steps K × ℕ)) (arr : Fld → List K) (nmp : ℕ) (arr' : Fld → List K) (nmp' : ℕ)
    (h : regenLoop o st pass fuel k cells arr nmp = .ok (arr', nmp')) :
    nmp' = nmp + (cells.map (·.2)).sum ∧ ∀ f, (arr' f).length = (arr f).length := by
  induction fuel generalizing k cells arr nmp with
  | zero =>
    unfold regenLoop at h
    simp only at h
    split at h
    · next h0 =>
      simp only [Except.ok.injEq, Prod.mk.injEq] at h
      obtain ⟨rfl, rfl⟩ := h
      refine ⟨?_, fun f => rfl⟩
      have : ∀ c ∈ cells, c.2 = 0 := by
        intro c hc
        by_contra hne
        have : c ∈ cells.filter (fun c => decide (0 < c.2)) := by
          simp [hc]; omega
        rw [List.length_eq_zero_iff.1 h0] at this
        simp at this
      have : (cells.map (·.2)).sum = 0 := by
        apply List.sum_eq_zero
        intro x hx
        obtain ⟨c, hc, rfl⟩ := List.mem_map.1 hx
        exact this c hc
      omega
    · simp at h
  | succ fuel ih =>
    unfold regenLoop at h
    simp only at h
    split at h
    · next h0 =>
      simp only [Except.ok.injEq, Prod.mk.injEq] at h
      obtain ⟨rfl, rfl⟩ := h
      refine ⟨?_, fun f => rfl⟩
      have : ∀ c ∈ cells, c.2 = 0 := by
        intro c hc
        by_contra hne
        have : c ∈ cells.filter (fun c => decide (0 < c.2)) := by
          simp [hc]; omega
        rw [List.length_eq_zero_iff.1 h0] at this
        simp at this
      have : (cells.map (·.2)).sum = 0 := by
        apply List.sum_eq_zero
        intro x hx
        obtain ⟨c, hc, rfl⟩ := List.mem_map.1 hx
        exact this c hc
      omega
    · split at h
      · simp at h
      · next cols e1 =>
        split at h
        · simp at h
        · next arr1 e2 =>
          obtain ⟨h1, h2⟩ := ih _ _ _ _ h
          refine ⟨?_, fun f => (h2 f).trans (assignAll_len _ _ _ _ _ _ e2 f)⟩
          rw [h1]
          have : ∀ l : List (Steps K × ℕ), (l.filter (fun c => decide (0 < c.2))).length
              + ((l.map (fun c => (c.1, c.2 - 1))).map (·.2)).sum = (l.map (·.2)).sum := by
            intro l
            induction l with
            | nil => rfl
            | cons a l ihl =>
              by_cases ha : 0 < a.2
              · simp [List.filter_cons, ha] at ihl ⊢; omega
              · simp [List.filter_cons, ha] at ihl ⊢; omega
          have := this cells
          omega

theorem zip_snd_sum {α : Type} (a : List α) (b : List ℕ) (h : a.length = b.length) :
    ((a.zip b).map (·.2)).sum = b.sum := by
  have : (a.zip b).map (fun p => p.2) = b := by
    have := List.unzip_zip (l₁ := a) (l₂ := b) h
    rw [List.unzip_eq_map] at this
    exact (Prod.ext_iff.1 this).2
  rw [this]

theorem cutX_wf (s : MPs K) (h : s.WF) (xm : K) : (s.cutX xm).WF ∧ (s.cutX xm).cap = s.cap ∧
    (s.cutX xm).ZeroTail := by
  have hm : clipMask ((s.arr .x).map (fun v => !decide (xm < |v|))) s.nmp
      = fullMask s (((s.arr .x).take s.nmp).map (fun v => !decide (xm < |v|))) := by
    simp [clipMask, fullMask, MPs.cap, List.map_take]
  have hk : (((s.arr .x).take s.nmp).map (fun v => !decide (xm < |v|))).length = s.nmp := by
    have := h.fits
    simp [MPs.cap] at this ⊢; omega
  unfold MPs.cutX
  rw [hm]
  refine ⟨compact_wf s _ h hk false, ?_, compact_zeroTail s _ h hk false⟩
  simp only [MPs.cap, MPs.compact]
  have := maskSel_arr_length s _ h hk .x
  rw [setPrefix_length]
  rw [this]
  have h1 := countTrue_le_length (((s.arr .x).take s.nmp).map (fun v => !decide (xm < |v|)))
  rw [hk] at h1
  exact h1.trans h.fits

theorem rebuild_wf (s s' : MPs K) (h : s.WF) (hc0 : 0 < s.cap) (c : FullCfg K) (xm : K) (d : FullDraws K)
    (hok : s.rebuild c xm d = .ok s') : s'.WF ∧ s'.cap = s.cap := by
  unfold MPs.rebuild at hok
  simp only at hok
  split at hok
  · simp at hok
  · next nel e1 =>
    split at hok
    · simp at hok
    · next arr nmp e2 =>
      simp only [Except.ok.injEq] at hok
      subst hok
      obtain ⟨h1, h2⟩ := regenLoop_spec _ _ _ _ _ _ _ _ _ _ e2
      rw [zip_snd_sum _ _ (by simp [cellCounts]), Nat.zero_add] at h1
      have h3 := sliceAssign_length _ _ _ _ _ e1
      rw [← h1] at e1
      have h4 := sliceAssign_array_fits ((s.arr .nel).map (fun _ => (0 : K))) (List.replicate nmp s.ref) nel 0 nmp
        (by simp) (List.length_replicate) (fun _ => by simpa [h.len] using hc0)
        (by rw [Nat.zero_add]; exact e1)
      rw [Nat.zero_add] at h4
      have hl : ∀ f, (arr f).length = s.cap := by
        intro f
        rw [h2 f]
        by_cases hf : f = .nel
        · subst hf
          rw [Function.update_self, h3]
          simp [h.len]
        · rw [Function.update_of_ne hf]
          split <;> simp [h.len]
      have hc : MPs.cap { s with
        nmp := nmp
        arr := fun f => if f = .tl ∧ s.lifetime = true then (s.arr .tl).map (fun _ => -1) else arr f } = s.cap := by
        simp [MPs.cap, hl]
      refine ⟨⟨?_, ?_⟩, hc⟩
      · intro f
        rw [hc]
        show (if f = .tl ∧ s.lifetime = true then (s.arr .tl).map (fun _ => (-1 : K)) else arr f).length = s.cap
        split
        · simp [h.len]
        · exact hl f
      · rw [hc]
        simpa [h.len] using h4

theorem checkRegen_wf (s s' : MPs K) (h : s.WF) (hc0 : 0 < s.cap) (c : FullCfg K) (fuel : ℕ) (d : FullDraws K)
    (hok : s.checkRegen c fuel d = .ok s') : s'.WF ∧ s'.cap = s.cap := by
  by_cases ht : c.trigger s = true
  · obtain ⟨hist, iCut, -, -, h3⟩ := checkRegen_ok s s' c fuel d hok ht
    have hc := cutX_wf (s.setRef (s.newRef c.nAfter)) (setRef_wf _ _ h) (xMaxOf c hist.length iCut)
    have hce : (s.setRef (s.newRef c.nAfter)).cap = s.cap := rfl
    have := rebuild_wf _ s' hc.1 (by rw [hc.2.1, hce]; exact hc0) c _ d h3
    exact ⟨this.1, this.2.trans (hc.2.1.trans hce)⟩
  · rw [checkRegen_not_trigger s c fuel d (by simpa using ht)] at hok
    simp only [Except.ok.injEq] at hok; subst hok
    exact ⟨h, rfl⟩

theorem mutate_wf (s : MPs K) (h : s.WF) (v : Fld → ℕ → K) : (s.mutate v).WF ∧ (s.mutate v).cap = s.cap := by
  have hl : ∀ f, ((s.mutate v).arr f).length = s.cap := by
    intro f
    have := h.fits
    simp [MPs.mutate, h.len]; omega
  have hc : (s.mutate v).cap = s.cap := hl .x
  exact ⟨⟨fun f => by rw [hc]; exact hl f, by rw [hc]; exact h.fits⟩, hc⟩

theorem step_wf (s s' : MPs K) (op : MPOp K) (h : s.WF) (ha : op.Fits s) (hok : s.step op = .ok s') :
    s'.WF ∧ s'.cap = s.cap := by
  cases op with
  | clean =>
    simp only [MPs.step, Except.ok.injEq] at hok; subst hok
    exact ⟨clean_wf s h, clean_cap s h⟩
  | soft t r =>
    simp only [MPs.step, Except.ok.injEq] at hok; subst hok
    exact ⟨softRegen_wf s h t r, softRegen_cap s h t r⟩
  | checkSoft c r =>
    simp only [MPs.step, Except.ok.injEq] at hok; subst hok
    exact checkSoft_cases s c r (fun s' => s'.WF ∧ s'.cap = s.cap) ⟨h, rfl⟩
      (fun _ t _ _ => ⟨softRegen_wf s h t r, softRegen_cap s h t r⟩)
  | checkAsync c r =>
    simp only [MPs.step, Except.ok.injEq] at hok; subst hok
    exact checkAsync_cases s c r (fun s' => s'.WF ∧ s'.cap = s.cap) ⟨h, rfl⟩
      ⟨clean_wf s h, clean_cap s h⟩
      (fun t => ⟨softRegen_wf _ (clean_wf s h) t r,
        (softRegen_cap _ (clean_wf s h) t r).trans (clean_cap s h)⟩)
  | regen c fuel d => exact checkRegen_wf s s' h ha c fuel d hok
  | addNew n src =>
    obtain ⟨⟨l, hx, hl⟩, h1⟩ := ha
    exact addNew_wf s s' h n src l hx hl h1 hok
  | addUniform o r v q d => exact addUniform_wf s s' h ha o r v q d hok
  | addDensity o r v q d => exact addDensity_wf s s' h ha o r v q d hok
  | addDict d => exact addNew_wf s s' h d.n (dictSrc d) _ rfl ha.1 ha.2 hok
  | initDict d =>
    exact addNew_wf { s with nmp := 0 } s' ⟨h.len, Nat.zero_le _⟩ d.n (dictSrc d) _ rfl ha.1 ha.2 hok
  | resetRef =>
    simp only [MPs.step, Except.ok.injEq] at hok; subst hok
    exact ⟨setRef_wf _ _ h, rfl⟩
  | mutate v =>
    simp only [MPs.step, Except.ok.injEq] at hok; subst hok
    exact mutate_wf s h v

theorem runOps_wf (s s' : MPs K) (ops : List (MPOp K)) (h : s.WF) (ha : MPs.AllFit s ops)
    (hok : s.runOps ops = .ok s') : s'.WF ∧ s'.cap = s.cap := by
  induction ops generalizing s with
  | nil => simp only [MPs.runOps, Except.ok.injEq] at hok; subst hok; exact ⟨h, rfl⟩
  | cons op ops ih =>
    unfold MPs.runOps at hok
    split at hok
    · simp at hok
    · next s1 e =>
      have hfit : op.Fits s := ha [] op ops rfl s rfl
      have h1 := step_wf s s1 op h hfit e
      have h2 := ih s1 h1.1 (by
        intro pre o post hp s2 hr
        refine ha (op :: pre) o post (by simp [hp]) s2 ?_
        simp [MPs.runOps, e, hr]) hok
      exact ⟨h2.1, h2.2.trans h1.2⟩

end PyECLOUD
