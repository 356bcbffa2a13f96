import Verif.Model.FileMan
import Mathlib.Tactic.Linarith
import Mathlib.Data.List.GetD
import Mathlib.Tactic.NormNum

/-!
# C138: file helpers
-/

namespace PyECLOUD

theorem bind_okH {α β : Type} {x : Except H5Err α} {f : α → Except H5Err β} {b : β} (h : x >>= f = .ok b) :
    ∃ a, x = .ok a ∧ f a = .ok b := by
  cases x with
  | error e => cases h
  | ok a => exact ⟨a, rfl, h⟩

theorem monJoin_ok {α : Type} (cat : α → α → α) (cur md r : List (String × α)) (h : monJoin cat cur md = .ok r) :
    r.map Prod.fst = md.map Prod.fst ∧
    ∀ (i : ℕ) k a, md[i]? = some (k, a) → ∃ b, cur.lookup k = some b ∧ r[i]? = some (k, cat a b) := by
  induction md generalizing r with
  | nil =>
    cases h
    simp
  | cons p md ih =>
    obtain ⟨k, a⟩ := p
    unfold monJoin at h
    cases hb : cur.lookup k with
    | none => rw [hb] at h; cases h
    | some b =>
      rw [hb] at h
      obtain ⟨rest, hr, hh⟩ := bind_okH h
      cases hh
      obtain ⟨h1, h2⟩ := ih rest hr
      refine ⟨by simp [h1], ?_⟩
      intro i k' a' hi
      cases i with
      | zero =>
        simp only [List.getElem?_cons_zero, Option.some.injEq, Prod.mk.injEq] at hi
        obtain ⟨rfl, rfl⟩ := hi
        exact ⟨b, hb, rfl⟩
      | succ i =>
        simp only [List.getElem?_cons_succ] at hi ⊢
        exact h2 i k' a' hi

theorem monJoin_exists {α : Type} (cat : α → α → α) (cur md : List (String × α))
    (h : ∀ k ∈ md.map Prod.fst, cur.lookup k ≠ none) : ∃ r, monJoin cat cur md = .ok r := by
  induction md with
  | nil => exact ⟨[], rfl⟩
  | cons p md ih =>
    obtain ⟨k, a⟩ := p
    obtain ⟨r, hr⟩ := ih (fun k' hk' => h k' (by simp at hk' ⊢; exact Or.inr hk'))
    unfold monJoin
    cases hb : cur.lookup k with
    | none => exact absurd hb (h k (by simp))
    | some b =>
      simp only [hr]
      exact ⟨_, rfl⟩

theorem monLoop_groups {α : Type} (permissive : Bool) (gs : List (List (String × List α)))
    (md : List (String × List α)) (h : ∀ g ∈ gs, ∀ k ∈ md.map Prod.fst, g.lookup k ≠ none) :
    ∃ r, monLoop catFirst permissive (gs.map .group) md = .ok r ∧ r.map Prod.fst = md.map Prod.fst ∧
      ∀ (i : ℕ) k a, md[i]? = some (k, a) → r[i]? = some (k, a ++ (gs.map (fun g => (g.lookup k).getD [])).flatten) := by
  induction gs generalizing md with
  | nil => exact ⟨md, rfl, rfl, fun i k a hi => by simpa using hi⟩
  | cons g gs ih =>
    obtain ⟨m1, hm1⟩ := monJoin_exists catFirst g md (h g (by simp))
    obtain ⟨e1, e2⟩ := monJoin_ok _ _ _ _ hm1
    obtain ⟨r, hr, r1, r2⟩ := ih m1 (fun g' hg' k hk => h g' (by simp [hg']) k (by rwa [e1] at hk))
    refine ⟨r, ?_, r1.trans e1, ?_⟩
    · simp only [List.map_cons, monLoop, monLoad, hm1]
      exact hr
    · intro i k a hi
      obtain ⟨b, hb, hi'⟩ := e2 i k a hi
      rw [r2 i k _ hi']
      simp [catFirst, hb]

/-- C138 (joining): for every list of files that all contain the group and the data sets of the first, the result has
the data sets of the first file, and each is the records of all files one after the other, in the order of the list. -/
theorem C138_concat {α : Type} (permissive : Bool) (g : List (String × List α)) (gs : List (List (String × List α)))
    (h : ∀ g' ∈ gs, ∀ k ∈ g.map Prod.fst, g'.lookup k ≠ none) :
    ∃ r, monList catFirst permissive ((g :: gs).map .group) = .ok r ∧ r.map Prod.fst = g.map Prod.fst ∧
      ∀ (i : ℕ) k a, g[i]? = some (k, a) → r[i]? = some (k, a ++ (gs.map (fun g' => (g'.lookup k).getD [])).flatten) :=
  monLoop_groups permissive gs g h

/-- Whether a file can be opened. -/
def H5File.opens {α : Type} : H5File α → Bool
  | .missing => false
  | _ => true

theorem monLoop_permissive {α : Type} (cat : α → α → α) (fs : List (H5File α)) (md : List (String × α)) :
    monLoop cat true fs md = monLoop cat false (fs.filter H5File.opens) md := by
  induction fs generalizing md with
  | nil => rfl
  | cons f fs ih =>
    cases f with
    | missing => simpa [monLoop, monLoad, H5File.opens] using ih md
    | noGroup => rfl
    | group d =>
      change (do let m ← monJoin cat d md; monLoop cat true fs m) =
        (do let m ← monJoin cat d md; monLoop cat false (fs.filter H5File.opens) m)
      cases monJoin cat d md with
      | error e => rfl
      | ok m => exact ih m

/-- C138 (missing files): with `permissive` the result, exceptions included, is that of the list without the files
that cannot be opened, provided the first one can; without it, every file that cannot be opened makes the call
raise. -/
theorem C138_missing_files {α : Type} (cat : α → α → α) (f : H5File α) (fs : List (H5File α)) :
    (f.opens = true → monList cat true (f :: fs) = monList cat false ((f :: fs).filter H5File.opens)) ∧
    ((∃ g ∈ f :: fs, g.opens = false) → ∃ e, monList cat false (f :: fs) = .error e) := by
  constructor
  · intro hf
    rw [List.filter_cons, if_pos hf]
    change (do let md ← monLoad f; monLoop cat true fs md) =
      (do let md ← monLoad f; monLoop cat false (fs.filter H5File.opens) md)
    cases monLoad f with
    | error e => rfl
    | ok md => exact monLoop_permissive cat fs md
  · rintro ⟨g, hg, hm⟩
    have hloop : ∀ (fs : List (H5File α)) md, g ∈ fs → ∃ e, monLoop cat false fs md = .error e := by
      intro fs
      induction fs with
      | nil => intro md h; cases h
      | cons f fs ih =>
        intro md hgm
        cases f with
        | missing => exact ⟨.io, rfl⟩
        | noGroup => exact ⟨.key, rfl⟩
        | group d =>
          rcases List.mem_cons.1 hgm with rfl | hgm
          · cases hm
          · simp only [monLoop, monLoad]
            cases monJoin cat d md with
            | error e => exact ⟨e, rfl⟩
            | ok m => exact ih m hgm
    unfold monList
    cases f with
    | missing => exact ⟨.io, rfl⟩
    | noGroup => exact ⟨.key, rfl⟩
    | group d =>
      rcases List.mem_cons.1 hg with rfl | hg
      · cases hm
      · exact hloop fs d hg

/-- C138 fails for the first file: `permissive` does not skip it. -/
theorem C138_first_file_violated {α : Type} (cat : α → α → α) (fs : List (H5File α)) :
    monList cat true (.missing :: fs) = .error .io := rfl

/-- C138 fails for files that can be opened but lack the group or a data set: `permissive` does not skip them. -/
theorem C138_incomplete_file_violated {α : Type} (cat : α → α → α) (g : List (String × α)) (fs : List (H5File α)) :
    monList cat true (.group g :: .noGroup :: fs) = .error .key ∧
    (∀ g' k, k ∈ g.map Prod.fst → g'.lookup k = none → ∃ e, monList cat true (.group g :: .group g' :: fs) = .error e) := by
  refine ⟨rfl, fun g' k hk hn => ?_⟩
  cases hj : monJoin cat g' g with
  | error e =>
    refine ⟨e, ?_⟩
    simp only [monList, monLoad, monLoop]
    change (do let md' ← monJoin cat g' g; monLoop cat true fs md') = _
    rw [hj]
    rfl
  | ok m =>
    exfalso
    obtain ⟨p, hp, rfl⟩ := List.mem_map.1 hk
    obtain ⟨i, hi⟩ := List.getElem?_of_mem hp
    obtain ⟨b, hb, -⟩ := (monJoin_ok _ _ _ _ hj).2 i p.1 p.2 hi
    rw [hn] at hb
    cases hb

/-- A two-dimensional array with `r` rows of `c` entries. -/
def IsRect {K : Type} (r c : ℕ) (m : List (List K)) : Prop := m.length = r ∧ ∀ x ∈ m, x.length = c

theorem transposeRows_length {K : Type} (d : K) (r c : ℕ) (m : List (List K)) (h : IsRect r c m) (hr : 0 < r) :
    IsRect c r (transposeRows d m) ∧ ∀ i j, i < r → j < c →
      ((transposeRows d m).getD j []).getD i d = (m.getD i []).getD j d := by
  obtain ⟨h1, h2⟩ := h
  have hh : (m.headD []).length = c := by
    cases m with
    | nil => simp at h1; omega
    | cons x m => exact h2 x (by simp)
  refine ⟨⟨by simp only [transposeRows, List.length_map, List.length_range, hh], ?_⟩, ?_⟩
  · intro x hx
    simp only [transposeRows, List.mem_map, List.mem_range] at hx
    obtain ⟨j, -, rfl⟩ := hx
    simp [h1]
  · intro i j hi hj
    have hi' : i < m.length := by omega
    simp only [transposeRows, List.getD_eq_getElem?_getD, List.getElem?_map]
    rw [List.getElem?_range (by omega)]
    simp [List.getElem?_eq_getElem hi']

theorem getD_append_two {α : Type} (d : α) (l m : List α) (n : ℕ) :
    (l ++ m).getD n d = if n < l.length then l.getD n d else m.getD (n - l.length) d := by
  by_cases h : n < l.length
  · rw [if_pos h, List.getD_append _ _ _ _ h]
  · rw [if_neg h, List.getD_append_right _ _ _ _ (by omega)]

/-- C138 (transposed data): joining along the last axis. Two arrays with the same number of rows and at least one column
together give the array whose rows are the rows of the first followed by those of the second. -/
theorem C138_transposed {K : Type} (d : K) (r c c' : ℕ) (a b : List (List K)) (ha : IsRect r c a) (hb : IsRect r c' b)
    (hr : 0 < r) (hc : 0 < c + c') :
    catLast d a b = List.zipWith (· ++ ·) a b := by
  obtain ⟨ta, ea⟩ := transposeRows_length d r c a ha hr
  obtain ⟨tb, eb⟩ := transposeRows_length d r c' b hb hr
  have tab : IsRect (c + c') r (transposeRows d a ++ transposeRows d b) := by
    refine ⟨by rw [List.length_append, ta.1, tb.1], ?_⟩
    intro x hx
    rcases List.mem_append.1 hx with h | h
    · exact ta.2 x h
    · exact tb.2 x h
  obtain ⟨tc, ec⟩ := transposeRows_length d (c + c') r _ tab hc
  have tz : IsRect r (c + c') (List.zipWith (· ++ ·) a b) := by
    refine ⟨by rw [List.length_zipWith, ha.1, hb.1]; simp, ?_⟩
    intro x hx
    obtain ⟨i, hi⟩ := List.getElem?_of_mem hx
    rw [List.getElem?_zipWith] at hi
    cases h1 : a[i]? with
    | none => rw [h1] at hi; cases hi
    | some u =>
      cases h2 : b[i]? with
      | none => rw [h1, h2] at hi; cases hi
      | some v =>
        rw [h1, h2] at hi
        cases hi
        rw [List.length_append, ha.2 u (List.mem_of_getElem? h1), hb.2 v (List.mem_of_getElem? h2)]
  -- two arrays of the same shape with the same entries are equal
  apply List.ext_getElem
  · rw [tz.1]; exact tc.1
  · intro i h1 h2
    have hi : i < r := by rw [← tz.1]; exact h2
    apply List.ext_getElem
    · rw [tz.2 _ (List.getElem_mem h2)]
      exact tc.2 _ (List.getElem_mem h1)
    · intro j g1 g2
      have hj : j < c + c' := by
        rw [← tz.2 _ (List.getElem_mem h2)]; exact g2
      have e := ec j i hj hi
      have ia : i < a.length := by rw [ha.1]; exact hi
      have ib : i < b.length := by rw [hb.1]; exact hi
      have la : (a.getD i []).length = c := by
        rw [List.getD_eq_getElem _ _ ia]; exact ha.2 _ (List.getElem_mem ia)
      have lhs : ((catLast d a b)[i])[j] = ((catLast d a b).getD i []).getD j d := by
        rw [List.getD_eq_getElem _ _ h1, List.getD_eq_getElem _ _ g1]
      rw [lhs]
      unfold catLast
      rw [e, getD_append_two, ta.1]
      have hz : (List.zipWith (· ++ ·) a b)[i] = a.getD i [] ++ b.getD i [] := by
        rw [List.getElem_zipWith, List.getD_eq_getElem _ _ ia, List.getD_eq_getElem _ _ ib]
      have rhs : (List.zipWith (· ++ ·) a b)[i][j] = (a.getD i [] ++ b.getD i []).getD j d := by
        rw [← hz, List.getD_eq_getElem _ _ g2]
      rw [rhs, getD_append_two, la]
      by_cases hjc : j < c
      · rw [if_pos hjc, if_pos hjc]
        exact ea i j hi hjc
      · rw [if_neg hjc, if_neg hjc]
        exact eb i (j - c) hi (by omega)

/-- C138 (h5 files): a dictionary of scalars and arrays written to an h5 file and read again is the same. An array of
shape `()` is a scalar. -/
theorem C138_h5_roundtrip {K : Type} (d : K) (v : List (String × PyVal K))
    (h : ∀ k a, (k, PyVal.arr a) ∈ v → a.shape ≠ []) : viaH5 d v = v := by
  unfold viaH5
  conv_rhs => rw [← List.map_id v]
  apply List.map_congr_left
  rintro ⟨k, x⟩ hx
  cases x with
  | scalar x => rfl
  | arr a => simp [toDataset, fromDataset, h k a hx]

/-- C138 (mat files; partial: no dimension is one): an array written to a .mat file and read with `myloadmat` keeps its
entries and loses its dimensions of length one, so it is unchanged exactly if it has none. -/
theorem C138_mat_roundtrip_partial {K : Type} (v : List (String × NDArr K)) :
    (viaMyloadmat true v).map Prod.fst = v.map Prod.fst ∧
    ∀ (i : ℕ) k a, v[i]? = some (k, a) → ∃ b, (viaMyloadmat true v)[i]? = some (k, b) ∧ b.data = a.data ∧
      b.shape = a.shape.filter (· ≠ 1) ∧ (b = a ↔ 1 ∉ a.shape) := by
  refine ⟨by simp [viaMyloadmat], ?_⟩
  intro i k a hi
  have hs : (npSqueeze (viaMat a)).shape = a.shape.filter (· ≠ 1) ∧ (npSqueeze (viaMat a)).data = a.data := by
    obtain ⟨s, dt⟩ := a
    match s with
    | [] => exact ⟨rfl, rfl⟩
    | [n] => exact ⟨by simp [npSqueeze, viaMat], rfl⟩
    | n :: m :: s => exact ⟨rfl, rfl⟩
  refine ⟨npSqueeze (viaMat a), by simp [viaMyloadmat, hi], hs.2, hs.1, ?_⟩
  constructor
  · intro he h1
    have h2 := hs.1
    rw [he] at h2
    rw [h2] at h1
    simp at h1
  · intro h1
    have : a.shape.filter (· ≠ 1) = a.shape := List.filter_eq_self.2 (fun x hx => by
      simp only [ne_eq, decide_not, Bool.not_eq_eq_eq_not, Bool.not_true, decide_eq_false_iff_not]
      rintro rfl; exact h1 hx)
    obtain ⟨s, dt⟩ := a
    rcases hn : npSqueeze (viaMat ⟨s, dt⟩) with ⟨s', dt'⟩
    rw [hn] at hs
    simp only at hs this
    rw [hs.1, hs.2, this]

/-- C138 (mat files read without squeezing): all entries come back; arrays of two or more dimensions are unchanged, vectors come
back as one row, scalars as a one by one matrix. -/
theorem C138_mat_unsqueezed {K : Type} (v : List (String × NDArr K)) :
    (viaMyloadmat false v).map Prod.fst = v.map Prod.fst ∧
    ∀ (i : ℕ) k a, v[i]? = some (k, a) → ∃ b, (viaMyloadmat false v)[i]? = some (k, b) ∧ b.data = a.data ∧
      b.shape = List.replicate (2 - a.shape.length) 1 ++ a.shape := by
  refine ⟨by simp [viaMyloadmat], ?_⟩
  intro i k a hi
  refine ⟨viaMat a, by simp [viaMyloadmat, hi], ?_⟩
  obtain ⟨s, dt⟩ := a
  match s with
  | [] => exact ⟨rfl, rfl⟩
  | [n] => exact ⟨rfl, rfl⟩
  | n :: m :: s => exact ⟨rfl, by simp [viaMat, show 2 - (s.length + 1 + 1) = 0 by omega]⟩

example : viaMyloadmat false [("a", ⟨[2], [1, 2]⟩), ("b", ⟨[1, 3], [1, 2, 3]⟩), ("c", ⟨[], [7]⟩)] =
    [("a", ⟨[1, 2], [1, 2]⟩), ("b", ⟨[1, 3], [1, 2, 3]⟩), ("c", ⟨[1, 1], [7]⟩)] := rfl

/-- C138 fails for arrays with one entry: a list of one element comes back from a .mat file as a scalar. -/
theorem C138_mat_roundtrip_violated {K : Type} (k : String) (x : K) :
    viaMyloadmat true [(k, ⟨[1], [x]⟩)] = [(k, ⟨[], [x]⟩)] := rfl

example : monList catFirst true ([[("x", [1, 2]), ("y", [3])], [("y", [5]), ("x", [4])]].map .group) =
    .ok [("x", [1, 2, 4]), ("y", [3, 5])] := by decide +kernel

example : ∀ g' ∈ [[("y", [5]), ("x", [4])]], ∀ k ∈ [("x", [1, 2]), ("y", [3])].map Prod.fst, g'.lookup k ≠ none := by
  decide +kernel

example : IsRect 2 1 [[1], [2]] ∧ IsRect 2 2 [[3, 4], [5, 6]] ∧
    catLast 0 [[1], [2]] [[3, 4], [5, 6]] = [[1, 3, 4], [2, 5, 6]] := by
  refine ⟨⟨rfl, by decide⟩, ⟨rfl, by decide⟩, by decide +kernel⟩

example : ((H5File.group [("x", [1])]).opens = true) ∧ ∃ g ∈ [H5File.group [("x", [1])], H5File.missing], g.opens = false :=
  ⟨rfl, .missing, by simp, rfl⟩

example : viaMyloadmat true [("a", ⟨[2], [1, 2]⟩), ("b", ⟨[1, 3], [1, 2, 3]⟩), ("c", ⟨[], [7]⟩)] =
    [("a", ⟨[2], [1, 2]⟩), ("b", ⟨[3], [1, 2, 3]⟩), ("c", ⟨[], [7]⟩)] := by decide +kernel

end PyECLOUD
