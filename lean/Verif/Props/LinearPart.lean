import Verif.Model.LinearPart
import Verif.Spec.LinearPart
import Verif.Lemmas.Resample
import Verif.Props.Yield
import Mathlib.Data.List.GetD

/-!
# C181: linear and nonlinear parts of field maps
-/

namespace PyECLOUD

set_option linter.unusedSectionVars false

variable {K : Type} [Field K] [LinearOrder K] [IsStrictOrderedRing K]

/-! ## the linear maps -/

theorem setCol_shape (nx ny : ℕ) (m : List (List K)) (hm : m.length = nx ∧ ∀ r ∈ m, r.length = ny) (iy : ℕ) (col : List K) (hc : col.length = nx) :
    (setCol m iy col).length = nx ∧ ∀ r ∈ setCol m iy col, r.length = ny := by
  unfold setCol
  refine ⟨by rw [List.length_zipWith, hm.1, hc, min_self], fun r hr => ?_⟩
  obtain ⟨i, hi, rfl⟩ := List.getElem_of_mem hr
  rw [List.getElem_zipWith, List.length_set]
  exact hm.2 _ (List.getElem_mem _)

theorem linX_fold (xg : List K) (k : K) (m : List (List K)) (ny : ℕ) (hm : m.length = xg.length ∧ ∀ r ∈ m, r.length = ny) : ∀ n ≤ ny,
    let f := (List.range n).foldl (fun a iy => setCol a iy (xg.map (fun x => k * x))) m
    (f.length = xg.length ∧ ∀ r ∈ f, r.length = ny) ∧ ∀ i j, i < xg.length → j < n → (f.getD i []).getD j 0 = k * xg.getD i 0
  | 0, _ => ⟨hm, fun i j _ hj => absurd hj (Nat.not_lt_zero j)⟩
  | n + 1, hn => by
    intro f
    have ih := linX_fold xg k m ny hm n (by omega)
    have hf : f = setCol ((List.range n).foldl (fun a iy => setCol a iy (xg.map (fun x => k * x))) m) n (xg.map (fun x => k * x)) := by
      change (List.range (n + 1)).foldl _ m = _
      rw [List.range_succ, List.foldl_append]
      rfl
    set g := (List.range n).foldl (fun a iy => setCol a iy (xg.map (fun x => k * x))) m with hg
    refine ⟨by rw [hf]; exact setCol_shape _ _ _ ih.1 _ _ (by rw [List.length_map]), fun i j hi hj => ?_⟩
    have hgi : i < g.length := by rw [ih.1.1]; exact hi
    have hr : g[i].length = ny := ih.1.2 _ (List.getElem_mem _)
    have e : f.getD i [] = g[i].set n (k * xg[i]) := by
      rw [hf, setCol, List.getD_eq_getElem _ _ (by rw [List.length_zipWith, List.length_map, ih.1.1, min_self]; exact hi), List.getElem_zipWith,
        List.getElem_map]
    rw [e, List.getD_eq_getElem _ _ (by rw [List.length_set, hr]; omega), List.getElem_set, List.getD_eq_getElem _ _ hi]
    by_cases h : n = j
    · rw [if_pos h]
    · rw [if_neg h]
      have := ih.2 i j hi (by omega)
      rwa [List.getD_eq_getElem _ _ hgi, List.getD_eq_getElem _ _ (by rw [hr]; omega), List.getD_eq_getElem _ _ hi] at this

theorem zeroMap_shape (nx ny : ℕ) (m : List (List K)) (hm : m.length = nx ∧ ∀ r ∈ m, r.length = ny) :
    (zeroMap m).length = nx ∧ ∀ r ∈ zeroMap m, r.length = ny := by
  unfold zeroMap
  refine ⟨by rw [List.length_map, hm.1], fun r hr => ?_⟩
  obtain ⟨s, hs, rfl⟩ := List.mem_map.1 hr
  rw [List.length_map, hm.2 s hs]

theorem linMapX_at (xg yg : List K) (k : K) (m : List (List K)) (hm : m.length = xg.length ∧ ∀ r ∈ m, r.length = yg.length) :
    ((linMapX xg yg k m).length = xg.length ∧ ∀ r ∈ linMapX xg yg k m, r.length = yg.length) ∧
      ∀ i j, i < xg.length → j < yg.length → ((linMapX xg yg k m).getD i []).getD j 0 = k * xg.getD i 0 :=
  linX_fold xg k (zeroMap m) yg.length (zeroMap_shape _ _ m hm) yg.length le_rfl

theorem linY_fold (row : List K) (m : List (List K)) : ∀ n,
    let f := (List.range n).foldl (fun a ix => rowsFrom a ix row) m
    f.length = m.length ∧ (0 < n → ∀ i, i < m.length → f[i]? = some row)
  | 0 => ⟨rfl, fun h => absurd h (lt_irrefl 0)⟩
  | n + 1 => by
    intro f
    have ih := linY_fold row m n
    have hf : f = rowsFrom ((List.range n).foldl (fun a ix => rowsFrom a ix row) m) n row := by
      change (List.range (n + 1)).foldl _ m = _
      rw [List.range_succ, List.foldl_append]
      rfl
    refine ⟨by rw [hf, rowsFrom, List.length_mapIdx]; exact ih.1, fun _ i hi => ?_⟩
    rw [hf, rowsFrom, List.getElem?_mapIdx]
    rcases Nat.eq_zero_or_pos n with h | h
    · subst h
      rw [List.getElem?_eq_getElem (by rw [ih.1]; exact hi)]
      simp
    · rw [ih.2 h i hi]
      simp

theorem linMapY_at (xg yg : List K) (k : K) (m : List (List K)) (hm : m.length = xg.length ∧ ∀ r ∈ m, r.length = yg.length) :
    ((linMapY xg yg k m).length = xg.length ∧ ∀ r ∈ linMapY xg yg k m, r.length = yg.length) ∧
      ∀ i j, i < xg.length → j < yg.length → ((linMapY xg yg k m).getD i []).getD j 0 = k * yg.getD j 0 := by
  obtain ⟨h1, h2⟩ := linY_fold (yg.map (fun y => k * y)) (zeroMap m) xg.length
  have hz := zeroMap_shape _ _ m hm
  rw [hz.1] at h1 h2
  change ((linMapY xg yg k m).length = _) at h1
  have h2' : ∀ i, i < xg.length → (linMapY xg yg k m)[i]? = some (yg.map (fun y => k * y)) := fun i hi => h2 (by omega) i hi
  refine ⟨⟨h1, fun r hr => ?_⟩, fun i j hi hj => ?_⟩
  · obtain ⟨i, hi, rfl⟩ := List.getElem_of_mem hr
    have := h2' i (by rw [← h1]; exact hi)
    rw [List.getElem?_eq_getElem hi] at this
    rw [Option.some.inj this, List.length_map]
  · rw [List.getD_eq_getElem?_getD (l := linMapY xg yg k m), h2' i hi, Option.getD_some, List.getD_eq_getElem _ _ (by rw [List.length_map]; exact hj), List.getElem_map,
      List.getD_eq_getElem _ _ hj]

/-! ## the sums -/

theorem getD_mem_of_lt {α : Type} (l : List α) (d : α) (s : ℕ) (hs : s < l.length) : l.getD s d ∈ l := by
  rw [List.getD_eq_getElem _ _ hs]
  exact List.getElem_mem _

theorem zipWith_getD {α β γ : Type} (f : α → β → γ) (a : List α) (b : List β) (da : α) (db : β) (dc : γ) (s : ℕ) (h1 : s < a.length) (h2 : s < b.length) :
    (List.zipWith f a b).getD s dc = f (a.getD s da) (b.getD s db) := by
  rw [List.getD_eq_getElem _ _ (by rw [List.length_zipWith]; omega), List.getElem_zipWith, List.getD_eq_getElem _ _ h1, List.getD_eq_getElem _ _ h2]

theorem map_range_getD {α : Type} (f : ℕ → α) (n : ℕ) (d : α) (i : ℕ) (hi : i < n) : ((List.range n).map f).getD i d = f i := by
  rw [List.getD_eq_getElem _ _ (by rw [List.length_map, List.length_range]; exact hi), List.getElem_map, List.getElem_range]

theorem matSub_at (nx ny : ℕ) (a b : List (List K)) (ha : a.length = nx ∧ ∀ r ∈ a, r.length = ny) (hb : b.length = nx ∧ ∀ r ∈ b, r.length = ny) (i j : ℕ)
    (hi : i < nx) (hj : j < ny) : ((matSub a b).getD i []).getD j 0 = (a.getD i []).getD j 0 - (b.getD i []).getD j 0 := by
  have hai : i < a.length := by rw [ha.1]; exact hi
  have hbi : i < b.length := by rw [hb.1]; exact hi
  have h1 : a[i].length = ny := ha.2 _ (List.getElem_mem _)
  have h2 : b[i].length = ny := hb.2 _ (List.getElem_mem _)
  unfold matSub
  rw [zipWith_getD _ a b [] [] [] i hai hbi, zipWith_getD _ _ _ 0 0 0 j (by rw [List.getD_eq_getElem _ _ hai, h1]; exact hj)
    (by rw [List.getD_eq_getElem _ _ hbi, h2]; exact hj)]

/-- the five maps of one component, node by node -/
theorem splitMaps_at (lin : K → List (List K) → List (List K)) (nx ny : ℕ) (coord : ℕ → ℕ → K)
    (hlin : ∀ k m, (m.length = nx ∧ ∀ r ∈ m, r.length = ny) → ((lin k m).length = nx ∧ ∀ r ∈ lin k m, r.length = ny) ∧
      ∀ i j, i < nx → j < ny → ((lin k m).getD i []).getD j 0 = k * coord i j)
    (maps : List (List (List K))) (hm : HasShape nx ny maps) (ks : List K) (hk : ks.length = maps.length) (s i j : ℕ) (hs : s < maps.length) (hi : i < nx)
    (hj : j < ny) :
    let S := splitMaps lin nx ny maps ks
    mapAt S.lin s i j = ks.getD s 0 * coord i j ∧
    mapAt S.nonlin s i j = mapAt maps s i j - ks.getD s 0 * coord i j ∧
    mapAt S.linAve s i j = ks.sum / (ks.length : K) * coord i j ∧
    mapAt S.linNoave s i j = (ks.getD s 0 - ks.sum / (ks.length : K)) * coord i j ∧
    mapAt S.nonlinAve s i j = ((List.range maps.length).map (fun t => mapAt S.nonlin t i j)).sum / (maps.length : K) := by
  intro S
  have hsh : ∀ t, t < maps.length → (maps.getD t []).length = nx ∧ ∀ r ∈ maps.getD t [], r.length = ny :=
    fun t ht => hm _ (getD_mem_of_lt maps [] t ht)
  have hL : ∀ t, t < maps.length → S.lin.getD t [] = lin (ks.getD t 0) (maps.getD t []) :=
    fun t ht => zipWith_getD lin ks maps 0 [] [] t (by omega) ht
  have hA : S.linAve.getD s [] = lin (ks.sum / (ks.length : K)) (maps.getD s []) := by
    change (maps.map _).getD s [] = _
    rw [List.getD_eq_getElem _ _ (by rw [List.length_map]; exact hs), List.getElem_map, List.getD_eq_getElem _ _ hs]
  have hSl : S.lin.length = maps.length := by
    change (List.zipWith lin ks maps).length = _
    rw [List.length_zipWith, hk, min_self]
  have hAl : S.linAve.length = maps.length := by
    change (maps.map _).length = _
    rw [List.length_map]
  have hN : ∀ t, t < maps.length → S.nonlin.getD t [] = matSub (maps.getD t []) (S.lin.getD t []) :=
    fun t ht => zipWith_getD matSub maps S.lin [] [] [] t ht (by omega)
  have hO : S.linNoave.getD s [] = matSub (S.lin.getD s []) (S.linAve.getD s []) := zipWith_getD matSub S.lin S.linAve [] [] [] s (by omega) (by omega)
  have e1 := (hlin (ks.getD s 0) _ (hsh s hs)).2 i j hi hj
  have e3 := (hlin (ks.sum / (ks.length : K)) _ (hsh s hs)).2 i j hi hj
  refine ⟨?_, ?_, ?_, ?_, ?_⟩
  · unfold mapAt
    rw [hL s hs, e1]
  · unfold mapAt
    rw [hN s hs, matSub_at nx ny _ _ (hsh s hs) (by rw [hL s hs]; exact (hlin _ _ (hsh s hs)).1) i j hi hj, hL s hs, e1]
  · unfold mapAt
    rw [hA, e3]
  · unfold mapAt
    rw [hO, matSub_at nx ny _ _ (by rw [hL s hs]; exact (hlin _ _ (hsh s hs)).1) (by rw [hA]; exact (hlin _ _ (hsh s hs)).1) i j hi hj, hL s hs, hA, e1, e3]
    ring
  · have hNl : S.nonlin.length = maps.length := by
      change (List.zipWith matSub maps S.lin).length = _
      rw [List.length_zipWith, hSl, min_self]
    have hV : S.nonlinAve.getD s [] = matMean nx ny S.nonlin := by
      change (maps.map _).getD s [] = _
      rw [List.getD_eq_getElem _ _ (by rw [List.length_map]; exact hs), List.getElem_map]
      rfl
    unfold mapAt
    rw [hV, matMean, map_range_getD _ nx [] i hi, map_range_getD _ ny 0 j hj, hNl]
    congr 2
    refine List.ext_getElem (by rw [List.length_map, List.length_map, List.length_range, hNl]) fun t ht ht' => ?_
    rw [List.length_map] at ht
    rw [List.getElem_map, List.getElem_map, List.getElem_range, List.getD_eq_getElem _ _ ht]

theorem sum_map_diff {α : Type} (f g : α → K) (l : List α) : (l.map (fun t => f t - g t)).sum = (l.map f).sum - (l.map g).sum := by
  induction l with
  | nil => simp
  | cons a l ih => rw [List.map_cons, List.sum_cons, ih, List.map_cons, List.map_cons, List.sum_cons, List.sum_cons]; ring

theorem sum_range_getD (l : List K) : ((List.range l.length).map (fun t => l.getD t 0)).sum = l.sum := by
  congr 1
  refine List.ext_getElem (by simp) fun t ht ht' => ?_
  rw [List.getElem_map, List.getElem_range, List.getD_eq_getElem _ _ ht']

/-- the averages over the slices -/
theorem splitMaps_mean (n : ℕ) (hn : 0 < n) (ks : List K) (hk : ks.length = n) (co : K) (linNo nonlin all : ℕ → K) (nonAve linAve : K)
    (h1 : ∀ t < n, nonlin t = all t - ks.getD t 0 * co) (h2 : linAve = ks.sum / (ks.length : K) * co)
    (h3 : ∀ t < n, linNo t = (ks.getD t 0 - ks.sum / (ks.length : K)) * co) (h4 : nonAve = ((List.range n).map nonlin).sum / (n : K)) :
    linAve + nonAve = ((List.range n).map all).sum / (n : K) ∧ ((List.range n).map linNo).sum = 0 := by
  have hn' : (n : K) ≠ 0 := by exact_mod_cast hn.ne'
  have hks : ((List.range n).map (fun t => ks.getD t 0 * co)).sum = ks.sum * co := by
    rw [List.sum_map_mul_right, ← hk, sum_range_getD]
  constructor
  · have e : (List.range n).map nonlin = (List.range n).map (fun t => all t - ks.getD t 0 * co) :=
      List.map_congr_left fun t ht => h1 t (List.mem_range.1 ht)
    rw [h4, e, sum_map_diff, hks, h2, hk]
    field_simp
    ring
  · have e : (List.range n).map linNo = (List.range n).map (fun t => ks.getD t 0 * co - ks.sum / (ks.length : K) * co) :=
      List.map_congr_left fun t ht => by rw [h3 t (List.mem_range.1 ht)]; ring
    rw [e, sum_map_diff, hks, List.map_const', List.sum_replicate, List.length_range, hk, nsmul_eq_mul]
    field_simp
    ring

/-- the sums of the maps of one component -/
theorem splitMaps_sums (lin : K → List (List K) → List (List K)) (nx ny : ℕ) (coord : ℕ → ℕ → K)
    (hlin : ∀ k m, (m.length = nx ∧ ∀ r ∈ m, r.length = ny) → ((lin k m).length = nx ∧ ∀ r ∈ lin k m, r.length = ny) ∧
      ∀ i j, i < nx → j < ny → ((lin k m).getD i []).getD j 0 = k * coord i j)
    (maps : List (List (List K))) (hm : HasShape nx ny maps) (ks : List K) (hk : ks.length = maps.length) (s i j : ℕ) (hs : s < maps.length) (hi : i < nx)
    (hj : j < ny) (S : SplitMaps K) (hS : S = splitMaps lin nx ny maps ks) :
    mapAt S.lin s i j + mapAt S.nonlin s i j = mapAt maps s i j ∧
    mapAt S.linAve s i j + mapAt S.linNoave s i j = mapAt S.lin s i j ∧
    mapAt S.linAve s i j + mapAt S.nonlinAve s i j = ((List.range maps.length).map (fun t => mapAt maps t i j)).sum / (maps.length : K) ∧
    ((List.range maps.length).map (fun t => mapAt S.linNoave t i j)).sum = 0 := by
  have hat := fun t ht => splitMaps_at lin nx ny coord hlin maps hm ks hk t i j ht hi hj
  dsimp only at hat
  rw [← hS] at hat
  obtain ⟨a1, a2, a3, a4, a5⟩ := hat s hs
  obtain ⟨b1, b2⟩ := splitMaps_mean maps.length (by omega) ks hk (coord i j) (fun t => mapAt S.linNoave t i j)
    (fun t => mapAt S.nonlin t i j) (fun t => mapAt maps t i j) (mapAt S.nonlinAve s i j) (mapAt S.linAve s i j) (fun t ht => (hat t ht).2.1) a3
    (fun t ht => (hat t ht).2.2.2.1) a5
  refine ⟨?_, ?_, b1, b2⟩
  · rw [a1, a2]; ring
  · rw [a1, a3, a4]; ring

/-! ## the fits -/

omit [IsStrictOrderedRing K] in
theorem argminAux_le [IsStrictOrderedRing K] (t : K) : ∀ (l pre : List K) (best : ℕ) (m : K), pre[best]?.map (fun a => |a - t|) = some m → (∀ a ∈ pre, m ≤ |a - t|) →
    ∃ b, (pre ++ l)[argminAux t l pre.length best m]? = some b ∧ ∀ a ∈ pre ++ l, |b - t| ≤ |a - t|
  | [], pre, best, m, hb, hm => by
    obtain ⟨b, hb1, hb2⟩ := Option.map_eq_some_iff.1 hb
    refine ⟨b, by rw [List.append_nil]; exact hb1, fun a ha => ?_⟩
    rw [List.append_nil] at ha
    rw [hb2]
    exact hm a ha
  | c :: l, pre, best, m, hb, hm => by
    have e : pre ++ c :: l = (pre ++ [c]) ++ l := by simp
    unfold argminAux
    rw [e]
    have hlen : pre.length + 1 = (pre ++ [c]).length := by simp
    split
    · rename_i hlt
      rw [hlen]
      refine argminAux_le t l (pre ++ [c]) pre.length |c - t| (by simp) fun a ha => ?_
      rcases List.mem_append.1 ha with h | h
      · exact hlt.le.trans (hm a h)
      · rw [List.mem_singleton.1 h]
    · rename_i hlt
      rw [hlen]
      refine argminAux_le t l (pre ++ [c]) best m ?_ fun a ha => ?_
      · obtain ⟨b, hb1, hb2⟩ := Option.map_eq_some_iff.1 hb
        rw [List.getElem?_append_left (List.getElem?_eq_some_iff.1 hb1).1, hb1, Option.map_some, hb2]
      · rcases List.mem_append.1 ha with h | h
        · exact hm a h
        · rw [List.mem_singleton.1 h]
          exact not_lt.1 hlt

theorem argminAbs_le (ts : List K) (t : K) (k : ℕ) (h : argminAbs ts t = .ok k) : ∃ b, ts[k]? = some b ∧ ∀ a ∈ ts, |b - t| ≤ |a - t| := by
  unfold argminAbs at h
  cases ts with
  | nil => cases h
  | cons a l =>
    rw [← Except.ok.inj h]
    exact argminAux_le t l [a] 0 |a - t| rfl (fun c hc => by rw [List.mem_singleton.1 hc])

theorem polyfit_best (l : List (K × K)) (a b : K × K) (ha : a ∈ l) (hb : b ∈ l) (hab : a.1 ≠ b.1) (g c : K) :
    misfit l (polyfit1 l).1 (polyfit1 l).2 ≤ misfit l g c := by
  rw [polyfit1_split l a b ha hb hab g c]
  have : 0 ≤ (l.map (fun p => (((polyfit1 l).1 - g) * p.1 + ((polyfit1 l).2 - c)) ^ 2)).sum :=
    List.sum_nonneg fun x hx => by
      obtain ⟨p, -, rfl⟩ := List.mem_map.1 hx
      positivity
  linarith

theorem sum_sq_zero (f : K × K → K) : ∀ l : List (K × K), (l.map (fun p => f p ^ 2)).sum = 0 → ∀ p ∈ l, f p = 0
  | [], _, p, hp => by cases hp
  | a :: l, h, p, hp => by
    rw [List.map_cons, List.sum_cons] at h
    have h0 : 0 ≤ (l.map (fun p => f p ^ 2)).sum := List.sum_nonneg fun x hx => by
      obtain ⟨q, -, rfl⟩ := List.mem_map.1 hx
      positivity
    have h1 : 0 ≤ f a ^ 2 := sq_nonneg _
    rcases List.mem_cons.1 hp with e | e
    · subst e
      have : f p ^ 2 = 0 := by linarith
      exact pow_eq_zero_iff (two_ne_zero) |>.1 this
    · exact sum_sq_zero f l (by linarith) p e

theorem polyfit_exact (l : List (K × K)) (a b : K × K) (ha : a ∈ l) (hb : b ∈ l) (hab : a.1 ≠ b.1) (g c : K) (h : ∀ p ∈ l, p.2 = g * p.1 + c) :
    (polyfit1 l).1 = g := by
  have h0 : misfit l g c = 0 := by
    unfold misfit
    refine List.sum_eq_zero fun x hx => ?_
    obtain ⟨p, hp, rfl⟩ := List.mem_map.1 hx
    rw [h p hp]
    ring
  have hs := polyfit1_split l a b ha hb hab g c
  have hm : 0 ≤ misfit l (polyfit1 l).1 (polyfit1 l).2 := List.sum_nonneg fun x hx => by
    obtain ⟨p, -, rfl⟩ := List.mem_map.1 hx
    positivity
  have hn : 0 ≤ (l.map (fun p => (((polyfit1 l).1 - g) * p.1 + ((polyfit1 l).2 - c)) ^ 2)).sum := List.sum_nonneg fun x hx => by
    obtain ⟨p, -, rfl⟩ := List.mem_map.1 hx
    positivity
  have hz := sum_sq_zero (fun p => ((polyfit1 l).1 - g) * p.1 + ((polyfit1 l).2 - c)) l (by linarith)
  have za := hz a ha
  have zb := hz b hb
  have : ((polyfit1 l).1 - g) * (a.1 - b.1) = 0 := by
    linear_combination za - zb
  rcases mul_eq_zero.1 this with h | h
  · linarith
  · exact absurd (sub_eq_zero.1 h) hab

/-- Slope `k` belongs to the best line through points, and is exact for points on a line. -/
theorem fit_both (l : List (K × K)) (hl : ∃ a ∈ l, ∃ b ∈ l, a.1 ≠ b.1) :
    (∃ c, ∀ g' c', misfit l (polyfit1 l).1 c ≤ misfit l g' c') ∧ ∀ g c, (∀ p ∈ l, p.2 = g * p.1 + c) → (polyfit1 l).1 = g := by
  obtain ⟨a, ha, b, hb, hab⟩ := hl
  exact ⟨⟨_, fun g' c' => polyfit_best l a b ha hb hab g' c'⟩, fun g c h => polyfit_exact l a b ha hb hab g c h⟩

/-- **C181** (parts). Of the maps that are saved, linear and nonlinear part add up to the given map, the averaged linear part and the rest of the linear part to
the linear part, the two averaged parts to the average over the slices; the rest of the linear part vanishes on average. -/
theorem C181_parts (nSig sx sy : K) (xg yg : List K) (exs eys : List (List (List K))) (hx : HasShape xg.length yg.length exs)
    (hy : HasShape xg.length yg.length eys) (hl : eys.length = exs.length) (X Y : SplitMaps K)
    (h : isolateLinear nSig sx sy xg yg exs eys = .ok (X, Y)) (M : List (List (List K))) (S : SplitMaps K) (hMS : (M, S) = (exs, X) ∨ (M, S) = (eys, Y))
    (s i j : ℕ) (hs : s < exs.length) (hi : i < xg.length) (hj : j < yg.length) :
    mapAt S.lin s i j + mapAt S.nonlin s i j = mapAt M s i j ∧
    mapAt S.linAve s i j + mapAt S.linNoave s i j = mapAt S.lin s i j ∧
    mapAt S.linAve s i j + mapAt S.nonlinAve s i j = ((List.range M.length).map (fun t => mapAt M t i j)).sum / (M.length : K) ∧
    ((List.range M.length).map (fun t => mapAt S.linNoave t i j)).sum = 0 := by
  obtain ⟨ks, hks, he⟩ : ∃ ks, (exs.zip eys).mapM (fun m => axisSlopes nSig sx sy xg yg m.1 m.2) = .ok ks ∧
      (splitMaps (linMapX xg yg) xg.length yg.length exs (ks.map (·.1)), splitMaps (linMapY xg yg) xg.length yg.length eys (ks.map (·.2))) = (X, Y) := by
    unfold isolateLinear at h
    cases hq : (exs.zip eys).mapM (fun m => axisSlopes nSig sx sy xg yg m.1 m.2) with
    | error e => rw [hq] at h; cases h
    | ok ks => rw [hq] at h; exact ⟨ks, rfl, Except.ok.inj h⟩
  have hlen : ks.length = exs.length := by
    rw [(mapM_getElem? _ _ _ hks).1, List.length_zip, hl, min_self]
  rcases hMS with e | e
  · obtain ⟨e1, e2⟩ := Prod.mk.inj e
    rw [e1, e2]
    exact splitMaps_sums (linMapX xg yg) xg.length yg.length (fun i _ => xg.getD i 0) (fun k m hm => linMapX_at xg yg k m hm) exs hx (ks.map (·.1))
      (by rw [List.length_map, hlen]) s i j hs hi hj X (Prod.mk.inj he).1.symm
  · obtain ⟨e1, e2⟩ := Prod.mk.inj e
    rw [e1, e2]
    exact splitMaps_sums (linMapY xg yg) xg.length yg.length (fun _ j => yg.getD j 0) (fun k m hm => linMapY_at xg yg k m hm) eys hy (ks.map (·.2))
      (by rw [List.length_map, hlen, hl]) s i j (by rw [hl]; exact hs) hi hj Y (Prod.mk.inj he).2.symm

/-- **C181** (refusal). A map with at least one slice is only taken apart if each axis has a node within the given number of beam sizes; else nothing is saved. -/
theorem C181_refused (nSig sx sy : K) (xg yg : List K) (exs eys : List (List (List K))) (hl : eys.length = exs.length) (hne : exs ≠ [])
    (r : SplitMaps K × SplitMaps K) (h : isolateLinear nSig sx sy xg yg exs eys = .ok r) :
    (∃ x ∈ xg, |x| ≤ nSig * sx) ∧ ∃ y ∈ yg, |y| ≤ nSig * sy := by
  cases exs with
  | nil => exact absurd rfl hne
  | cons ex exs =>
    cases eys with
    | nil => cases hl
    | cons ey eys =>
      unfold isolateLinear at h
      cases hq : ((ex :: exs).zip (ey :: eys)).mapM (fun m => axisSlopes nSig sx sy xg yg m.1 m.2) with
      | error e => rw [hq] at h; cases h
      | ok ks =>
        obtain ⟨hlen, hget⟩ := mapM_getElem? _ _ _ hq
        have h0 : 0 < ks.length := by rw [hlen]; simp
        have hsl : axisSlopes nSig sx sy xg yg ex ey = .ok ks[0] := hget 0 (ex, ey) ks[0] rfl (List.getElem?_eq_getElem h0)
        unfold axisSlopes at hsl
        cases e1 : argminAbs xg 0 with
        | error e => rw [e1] at hsl; cases hsl
        | ok ix =>
          cases e2 : argminAbs yg 0 with
          | error e => rw [e1, e2] at hsl; cases hsl
          | ok iy =>
            rw [e1, e2] at hsl
            simp only [bind, Except.bind] at hsl
            split at hsl
            · cases hsl
            · next hb =>
              rw [Bool.or_eq_true, not_or, List.isEmpty_iff, List.isEmpty_iff] at hb
              obtain ⟨p, hp⟩ := List.exists_mem_of_ne_nil _ hb.1
              obtain ⟨q, hq'⟩ := List.exists_mem_of_ne_nil _ hb.2
              rw [List.mem_filter] at hp hq'
              exact ⟨⟨p.1, (List.of_mem_zip (a := p.1) (b := p.2) hp.1).1, of_decide_eq_true hp.2⟩,
                ⟨q.1, (List.of_mem_zip (a := q.1) (b := q.2) hq'.1).1, of_decide_eq_true hq'.2⟩⟩

/-- **C181** (the linear part). The linear part of every slice is `(kx x, ky y)` at every node; `kx` is the slope of the line that fits the horizontal field best on the row of
nodes closest to the axis, among those within the given number of beam sizes, and `ky` accordingly. If the field is linear there, the slopes are its gradients. -/
theorem C181_linear (nSig sx sy : K) (xg yg : List K) (exs eys : List (List (List K))) (hx : HasShape xg.length yg.length exs)
    (hy : HasShape xg.length yg.length eys) (hl : eys.length = exs.length) (X Y : SplitMaps K)
    (h : isolateLinear nSig sx sy xg yg exs eys = .ok (X, Y)) (s : ℕ) (hs : s < exs.length) :
    ∃ (kx ky x0 y0 : K) (ix iy : ℕ),
      (∀ i < xg.length, ∀ j < yg.length, mapAt X.lin s i j = kx * xg.getD i 0 ∧ mapAt Y.lin s i j = ky * yg.getD j 0) ∧
      xg[ix]? = some x0 ∧ (∀ x ∈ xg, |x0| ≤ |x|) ∧ yg[iy]? = some y0 ∧ (∀ y ∈ yg, |y0| ≤ |y|) ∧
      (∀ pts, pts = nearAxis xg ((List.range xg.length).map (fun i => mapAt exs s i iy)) (nSig * sx) → (∃ a ∈ pts, ∃ b ∈ pts, a.1 ≠ b.1) →
        (∃ c, ∀ g' c', misfit pts kx c ≤ misfit pts g' c') ∧ ∀ g c, (∀ p ∈ pts, p.2 = g * p.1 + c) → kx = g) ∧
      (∀ pts, pts = nearAxis yg ((List.range yg.length).map (fun j => mapAt eys s ix j)) (nSig * sy) → (∃ a ∈ pts, ∃ b ∈ pts, a.1 ≠ b.1) →
        (∃ c, ∀ g' c', misfit pts ky c ≤ misfit pts g' c') ∧ ∀ g c, (∀ p ∈ pts, p.2 = g * p.1 + c) → ky = g) := by
  obtain ⟨ks, hks, he⟩ : ∃ ks, (exs.zip eys).mapM (fun m => axisSlopes nSig sx sy xg yg m.1 m.2) = .ok ks ∧
      (splitMaps (linMapX xg yg) xg.length yg.length exs (ks.map (·.1)), splitMaps (linMapY xg yg) xg.length yg.length eys (ks.map (·.2))) = (X, Y) := by
    unfold isolateLinear at h
    cases hq : (exs.zip eys).mapM (fun m => axisSlopes nSig sx sy xg yg m.1 m.2) with
    | error e => rw [hq] at h; cases h
    | ok ks => rw [hq] at h; exact ⟨ks, rfl, Except.ok.inj h⟩
  obtain ⟨hlen0, hget⟩ := mapM_getElem? _ _ _ hks
  have hlen : ks.length = exs.length := by rw [hlen0, List.length_zip, hl, min_self]
  have hz : (exs.zip eys)[s]? = some (exs.getD s [], eys.getD s []) := by
    rw [List.getElem?_zip_eq_some, List.getD_eq_getElem _ _ hs, List.getD_eq_getElem _ _ (by omega)]
    exact ⟨List.getElem?_eq_getElem _, List.getElem?_eq_getElem _⟩
  have hsl : axisSlopes nSig sx sy xg yg (exs.getD s []) (eys.getD s []) = .ok (ks.getD s 0) := by
    exact hget s _ _ hz (by rw [List.getD_eq_getElem _ _ (by omega)]; exact List.getElem?_eq_getElem _)
  have hex := hx _ (getD_mem_of_lt exs [] s hs)
  have hey := hy _ (getD_mem_of_lt eys [] s (by omega))
  obtain ⟨ix, iy, hix, hiy, hk⟩ : ∃ ix iy, argminAbs xg 0 = .ok ix ∧ argminAbs yg 0 = .ok iy ∧
      ks.getD s 0 = ((polyfit1 ((xg.zip ((exs.getD s []).map (fun r => r.getD iy 0))).filter (fun p => decide (|p.1| ≤ nSig * sx)))).1,
        (polyfit1 ((yg.zip ((eys.getD s []).getD ix [])).filter (fun p => decide (|p.1| ≤ nSig * sy)))).1) := by
    unfold axisSlopes at hsl
    cases e1 : argminAbs xg 0 with
    | error e => rw [e1] at hsl; cases hsl
    | ok ix =>
      cases e2 : argminAbs yg 0 with
      | error e => rw [e1, e2] at hsl; cases hsl
      | ok iy =>
        rw [e1, e2] at hsl
        refine ⟨ix, iy, rfl, rfl, ?_⟩
        simp only [bind, Except.bind] at hsl
        split at hsl
        · cases hsl
        · exact (Except.ok.inj hsl).symm
  obtain ⟨x0, hx0, hx1⟩ := argminAbs_le xg 0 ix hix
  obtain ⟨y0, hy0, hy1⟩ := argminAbs_le yg 0 iy hiy
  simp only [sub_zero] at hx1 hy1
  have hcx : (exs.getD s []).map (fun r => r.getD iy 0) = (List.range xg.length).map (fun i => mapAt exs s i iy) := by
    refine List.ext_getElem (by simp only [List.length_map, List.length_range]; exact hex.1) fun i hi hi' => ?_
    rw [List.length_map] at hi
    rw [List.getElem_map, List.getElem_map, List.getElem_range, mapAt, List.getD_eq_getElem (exs.getD s []) _ hi]
  have hcy : (eys.getD s []).getD ix [] = (List.range yg.length).map (fun j => mapAt eys s ix j) := by
    have hixl : ix < (eys.getD s []).length := by rw [hey.1]; exact (List.getElem?_eq_some_iff.1 hx0).1
    have hr := hey.2 _ (getD_mem_of_lt (eys.getD s []) [] ix hixl)
    refine List.ext_getElem (by simp only [List.length_map, List.length_range]; exact hr) fun j hj hj' => ?_
    rw [List.getElem_map, List.getElem_range, mapAt, List.getD_eq_getElem _ _ hj]
  rw [hcx, hcy] at hk
  refine ⟨(ks.getD s 0).1, (ks.getD s 0).2, x0, y0, ix, iy, fun i hi j hj => ⟨?_, ?_⟩, hx0, hx1, hy0, hy1, ?_, ?_⟩
  · rw [← (Prod.mk.inj he).1]
    have := (splitMaps_at (linMapX xg yg) xg.length yg.length (fun i _ => xg.getD i 0) (fun k m hm => linMapX_at xg yg k m hm) exs hx (ks.map (·.1))
      (by rw [List.length_map, hlen]) s i j hs hi hj).1
    rwa [List.getD_eq_getElem (ks.map (·.1)) _ (by rw [List.length_map]; omega), List.getElem_map, ← List.getD_eq_getElem ks 0 (by omega)] at this
  · rw [← (Prod.mk.inj he).2]
    have := (splitMaps_at (linMapY xg yg) xg.length yg.length (fun _ j => yg.getD j 0) (fun k m hm => linMapY_at xg yg k m hm) eys hy (ks.map (·.2))
      (by rw [List.length_map, hlen, hl]) s i j (by omega) hi hj).1
    rwa [List.getD_eq_getElem (ks.map (·.2)) _ (by rw [List.length_map]; omega), List.getElem_map, ← List.getD_eq_getElem ks 0 (by omega)] at this
  · rintro pts rfl hp
    rw [hk]
    exact fit_both _ hp
  · rintro pts rfl hp
    rw [hk]
    exact fit_both _ hp

/-- Two slices on 3 x 3 nodes: horizontal gradients 2 and 4 on the axis, vertical ones 1 and 3; away from the axis the first slice has other values, which are not fitted. -/
example : (isolateLinear (1 : ℚ) 1 1 [-1, 0, 1] [-1, 0, 1] [[[0, -2, 0], [5, 0, 5], [0, 2, 0]], [[0, -4, 0], [0, 0, 0], [0, 4, 0]]]
      [[[0, 0, 0], [-1, 0, 1], [0, 0, 0]], [[0, 0, 0], [-3, 0, 3], [0, 0, 0]]]).map (fun r => (r.1.lin, r.1.linAve, r.2.nonlin)) =
    .ok ([[[-2, -2, -2], [0, 0, 0], [2, 2, 2]], [[-4, -4, -4], [0, 0, 0], [4, 4, 4]]],
      [[[-3, -3, -3], [0, 0, 0], [3, 3, 3]], [[-3, -3, -3], [0, 0, 0], [3, 3, 3]]],
      [[[1, 0, -1], [0, 0, 0], [1, 0, -1]], [[3, 0, -3], [0, 0, 0], [3, 0, -3]]]) := by
  decide +kernel

end PyECLOUD
