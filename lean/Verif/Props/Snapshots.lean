import Verif.Spec.Snapshots
import Verif.Props.SaverSteps

/-!
# Snapshots and movies: C77, C78
-/

set_option linter.unusedSectionVars false

namespace PyECLOUD

section

variable {K : Type} [Field K] [LinearOrder K]

/-- generic version -/
theorem obs_groups {C E : Type} (tObs : List K) (ready : E → Bool) (tt : E → K) (cont : E → C) (es : List E) (st : ObsSt C) :
    ∃ (gs : List (List E × E)) (opn : List E), es = gs.flatMap (fun g => g.1 ++ [g.2]) ++ opn ∧
      Watched (fun j e => ready e = true ∧ ∃ t, tObs[j]? = some t ∧ t ≤ tt e) st.i gs opn ∧
      (es.foldl (fun st e => obsSave tObs st (ready e) (tt e) (cont e)) st).i = st.i + gs.length ∧
      (es.foldl (fun st e => obsSave tObs st (ready e) (tt e) (cont e)) st).files =
        st.files ++ gs.mapIdx (fun k g => (st.i + k, cont g.2)) := by
  induction es generalizing st with
  | nil => exact ⟨[], [], rfl, fun e he => absurd he (by simp), by simp, by simp⟩
  | cons e l ih =>
    obtain ⟨gs, opn, g1, g2, g3, g4⟩ := ih (obsSave tObs st (ready e) (tt e) (cont e))
    rw [List.foldl_cons]
    by_cases he : ready e = true ∧ ∃ t, tObs[st.i]? = some t ∧ t ≤ tt e
    · have hs : obsSave tObs st (ready e) (tt e) (cont e) = ⟨st.i + 1, st.files ++ [(st.i, cont e)]⟩ := by
        obtain ⟨h1, t, h2, h3⟩ := he
        unfold obsSave
        rw [h2]
        simp [h1, h3]
      rw [hs] at g2 g3 g4 ⊢
      refine ⟨([], e) :: gs, opn, by rw [g1]; rfl, ⟨by simp, he, g2⟩, ?_, ?_⟩
      · rw [g3, List.length_cons]; simp only; omega
      · rw [g4, List.mapIdx_cons]
        simp only [List.append_assoc, List.singleton_append, Nat.add_zero]
        congr 2
        apply List.mapIdx_eq_mapIdx_iff.2
        intro k hk
        rw [Nat.add_assoc, Nat.add_comm 1 k]
    · have hs : obsSave tObs st (ready e) (tt e) (cont e) = st := by
        unfold obsSave
        cases hc : tObs[st.i]? with
        | none => rfl
        | some t =>
          simp only
          rw [if_neg]
          intro h
          simp only [Bool.and_eq_true, decide_eq_true_eq] at h
          exact he ⟨h.1, t, hc, h.2⟩
      rw [hs] at g2 g3 g4 ⊢
      cases gs with
      | nil =>
        refine ⟨[], e :: opn, by rw [g1]; rfl, ?_, g3, g4⟩
        intro e' he'
        rcases List.mem_cons.1 he' with rfl | he'
        · exact he
        · exact g2 e' he'
      | cons g gs =>
        refine ⟨(e :: g.1, g.2) :: gs, opn, by rw [g1]; simp, ⟨?_, g2.2.1, g2.2.2⟩, by rw [g3]; rfl, by rw [g4]; simp⟩
        intro e' he'
        rcases List.mem_cons.1 he' with rfl | he'
        · exact he
        · exact g2.1 e' he'

/-- **C77**: macroparticle snapshot number `k` is taken exactly once, at the first step after snapshot `k - 1` at which the
requested time is reached and the cloud is not empty, and contains the time, number, positions, velocities and sizes of
the live macroparticles. -/
theorem C77_mp_snapshots (tObs : List K) (es : List (WitIn K)) :
    ∃ (gs : List (List (WitIn K) × WitIn K)) (opn : List (WitIn K)), es = gs.flatMap (fun g => g.1 ++ [g.2]) ++ opn ∧
      Watched (fun j e => 0 < e.cloud.nmp ∧ ∃ t, tObs[j]? = some t ∧ t ≤ e.tt) 0 gs opn ∧
      (es.foldl (mpStateSave tObs) ⟨0, []⟩).files = gs.mapIdx (fun k g =>
        (k, ⟨g.2.tt, g.2.cloud.nmp, fun f => (g.2.cloud.arr f).take g.2.cloud.nmp⟩)) := by
  obtain ⟨gs, opn, g1, g2, -, g4⟩ := obs_groups tObs (fun i : WitIn K => decide (0 < i.cloud.nmp)) (fun i => i.tt)
    (fun i => (⟨i.tt, i.cloud.nmp, fun f => i.cloud.head f⟩ : MpSnap K)) es ⟨0, []⟩
  refine ⟨gs, opn, g1, ?_, ?_⟩
  · simpa only [decide_eq_true_eq] using g2
  · have : (es.foldl (mpStateSave tObs) ⟨0, []⟩).files = _ := g4
    rw [this]
    simp only [Nat.zero_add, List.nil_append]
    rfl

/-- **C77**: the same for the simulation states, which are also saved with an empty cloud. -/
theorem C77_sim_snapshots {S : Type} (tObs : List K) (es : List (WitIn K × S)) :
    ∃ (gs : List (List (WitIn K × S) × (WitIn K × S))) (opn : List (WitIn K × S)),
      es = gs.flatMap (fun g => g.1 ++ [g.2]) ++ opn ∧
      Watched (fun j e => ∃ t, tObs[j]? = some t ∧ t ≤ e.1.tt) 0 gs opn ∧
      (es.foldl (simStateSave tObs) ⟨0, []⟩).files = gs.mapIdx (fun k g => (k, g.2.2)) := by
  obtain ⟨gs, opn, g1, g2, -, g4⟩ := obs_groups tObs (fun _ : WitIn K × S => true) (fun i => i.1.tt) (fun i => i.2) es ⟨0, []⟩
  refine ⟨gs, opn, g1, ?_, ?_⟩
  · simpa only [true_and] using g2
  · have : (es.foldl (simStateSave tObs) ⟨0, []⟩).files = _ := g4
    rw [this]
    simp only [Nat.zero_add, List.nil_append]

/-- **C77**: with requests in increasing order, snapshots are never more than the requests, and if a step not before the last
request leaves requests open, the next non-empty step serves one more: after as many steps as requests all are served. -/
theorem C77_all_served {S : Type} (tObs : List K) (es : List (WitIn K × S)) (st : ObsSt S) (hle : st.i ≤ tObs.length)
    (hlate : ∀ e ∈ es, ∀ t ∈ tObs, t ≤ e.1.tt) :
    (es.foldl (simStateSave tObs) st).i = min tObs.length (st.i + es.length) := by
  induction es generalizing st with
  | nil => simp [hle]
  | cons e l ih =>
    rw [List.foldl_cons]
    by_cases hi : st.i < tObs.length
    · have hs : simStateSave tObs st e = ⟨st.i + 1, st.files ++ [(st.i, e.2)]⟩ := by
        unfold simStateSave obsSave
        rw [List.getElem?_eq_getElem hi]
        simp [hlate e (by simp) _ (List.getElem_mem hi)]
      rw [hs, ih _ (by simp only; omega) (fun e' he' => hlate e' (List.mem_cons_of_mem _ he'))]
      simp only [List.length_cons]
      omega
    · have hs : simStateSave tObs st e = st := by
        unfold simStateSave obsSave
        rw [List.getElem?_eq_none (by omega)]
      rw [hs, ih st hle (fun e' he' => hlate e' (List.mem_cons_of_mem _ he'))]
      simp only [List.length_cons]
      omega

/-- **C78**: the files of a movie and the frames not yet written contain, in order and once each, the frames of all steps at
which the space charge was recomputed, each with its time; a file is written at every passage and carries the number of the
passage just completed. -/
theorem C78_movie {F : Type} (es : List (WitIn K × F)) :
    let m := es.foldl movieSave (⟨[], [], []⟩ : MovieSt K F)
    (m.files.flatMap (fun f => f.2.2)) ++ m.frames = (es.filter (fun e => e.1.recomp)).map (fun e => e.2) ∧
    (m.files.flatMap (fun f => f.2.1)) ++ m.t = (es.filter (fun e => e.1.recomp)).map (fun e => e.1.tt) ∧
    m.files.map (fun f => f.1) = (es.filter (fun e => e.1.newPass)).map (fun e => (e.1.passNumb : ℤ) - 1) ∧
    (∀ f ∈ m.files, f.2.1.length = f.2.2.length) ∧ m.t.length = m.frames.length := by
  induction es using List.reverseRecOn with
  | nil => simp
  | append_singleton l e ih =>
    simp only [List.foldl_append, List.foldl_cons, List.foldl_nil, List.filter_append, List.map_append] at ih ⊢
    obtain ⟨h1, h2, h3, h4, h5⟩ := ih
    generalize l.foldl movieSave (⟨[], [], []⟩ : MovieSt K F) = m at h1 h2 h3 h4 h5 ⊢
    unfold movieSave
    rw [← h1, ← h2, ← h3]
    cases hr : e.1.recomp <;> cases hn : e.1.newPass <;> simp [hr, hn, h5] <;>
      intro a b c h <;> first
        | exact h4 (a, b, c) h
        | (rcases h with h | ⟨-, rfl, rfl⟩
           · exact h4 (a, b, c) h
           · simp [h5])

end

/-- requests at 0.02, 0.02 and 0.05: the second is one step late, the third on time -/
example : (((List.range 8).map witToy).foldl (mpStateSave [1 / 50, 1 / 50, 1 / 20]) ⟨0, []⟩).files.map
    (fun f => (f.1, f.2.tt, f.2.arr .nel)) =
    [(0, 2 / 100, [10, 1, 20]), (1, 3 / 100, [10, 1, 20]), (2, 5 / 100, [10, 1, 20])] := by decide +kernel

/-- a movie with two passages -/
example : (((List.range 7).map (fun k => ({ witToy k with
      newPass := decide (k % 3 = 2)
      passNumb := k / 3 + 1
      recomp := decide (k % 2 = 0) }, k))).foldl movieSave ⟨[], [], []⟩).files =
    [(0, [0, 2 / 100], [0, 2]), (1, [4 / 100], [4])] := by decide +kernel

end PyECLOUD
