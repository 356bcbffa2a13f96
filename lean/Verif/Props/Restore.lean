import Verif.Model.Restore
import Verif.Spec.Restore
import Verif.Lemmas.Impact
import Verif.Props.MPSystem
import Verif.Props.OutDict

/-!
# Output restored at a restart: C56
-/

set_option linter.unusedSectionVars false

namespace PyECLOUD

section

variable {K R : Type} [Field K] [LinearOrder K] [IsStrictOrderedRing K]

theorem argminAux_stay (t : K) (l : List K) (i best : ℕ) : argminAux t l i best 0 = best := by
  induction l generalizing i with
  | nil => rfl
  | cons a l ih =>
    unfold argminAux
    rw [if_neg (not_lt.2 (abs_nonneg _))]
    exact ih _

theorem argminAux_find (t : K) (l : List K) (i best : ℕ) (m : K) (hm : 0 < m) (hp : l.Pairwise (· < ·)) (k : ℕ)
    (hk : l[k]? = some t) : argminAux t l i best m = i + k := by
  induction l generalizing i best m k with
  | nil => simp at hk
  | cons a l ih =>
    cases k with
    | zero =>
      simp only [List.getElem?_cons_zero, Option.some.injEq] at hk
      subst hk
      unfold argminAux
      rw [sub_self, abs_zero, if_pos hm, argminAux_stay]
      rfl
    | succ k =>
      simp only [List.getElem?_cons_succ] at hk
      have hlt : a < t := (List.pairwise_cons.1 hp).1 t (List.mem_of_getElem? hk)
      have hpos : 0 < |a - t| := abs_pos.2 (sub_ne_zero.2 hlt.ne)
      unfold argminAux
      split
      · rw [ih (i + 1) i _ hpos (List.pairwise_cons.1 hp).2 k hk]; omega
      · rw [ih (i + 1) best _ hm (List.pairwise_cons.1 hp).2 k hk]; omega

/-- **C56**: a restart is refused when custom step-by-step observables are in use, whose series could not be restored. -/
theorem C56_custom_refused (lifetime : Bool) (fresh : String → OutVar R) (f : OutFile K R) (lastT : K) :
    loadFromOutput lifetime true fresh f lastT = .error .valueError := rfl

/-- In increasing times the index found is that of the time itself. -/
theorem argmin_mem (ts : List K) (t : K) (hp : ts.Pairwise (· < ·)) (k : ℕ) (hk : ts[k]? = some t) :
    argminAbs ts t = .ok k := by
  unfold argminAbs
  cases ts with
  | nil => simp at hk
  | cons a l =>
    simp only
    cases k with
    | zero =>
      simp only [List.getElem?_cons_zero, Option.some.injEq] at hk
      subst hk
      rw [sub_self, abs_zero, argminAux_stay]
    | succ k =>
      simp only [List.getElem?_cons_succ] at hk
      have hlt : a < t := (List.pairwise_cons.1 hp).1 t (List.mem_of_getElem? hk)
      have hpos : 0 < |a - t| := abs_pos.2 (sub_ne_zero.2 hlt.ne)
      rw [argminAux_find t l 1 0 _ hpos (List.pairwise_cons.1 hp).2 k hk, Nat.add_comm]

/-- The rows recorded up to and including the position of `t`. -/
theorem take_le (ts : List K) (hp : ts.Pairwise (· < ·)) (l : List R) (hl : l.length = ts.length) (t : K) (k : ℕ)
    (hk : ts[k]? = some t) :
    l.take (k + 1) = ((ts.zip l).filter (fun q => decide (q.1 ≤ t))).map Prod.snd ∧
    l.take k = ((ts.zip l).filter (fun q => decide (q.1 < t))).map Prod.snd ∧
    l.drop (k + 1) = ((ts.zip l).filter (fun q => decide (t < q.1))).map Prod.snd := by
  induction ts generalizing l k with
  | nil => simp at hk
  | cons a ts ih =>
    cases l with
    | nil => simp at hl
    | cons r l =>
      simp only [List.length_cons, Nat.add_right_cancel_iff] at hl
      obtain ⟨h1, h2⟩ := List.pairwise_cons.1 hp
      cases k with
      | zero =>
        simp only [List.getElem?_cons_zero, Option.some.injEq] at hk
        subst hk
        have hgt : ∀ q ∈ ts.zip l, a < q.1 := fun q hq => h1 q.1 (List.of_mem_zip hq).1
        have e1 : (ts.zip l).filter (fun q => decide (q.1 ≤ a)) = [] := by
          rw [List.filter_eq_nil_iff]
          intro q hq
          simpa using hgt q hq
        have e2 : (ts.zip l).filter (fun q => decide (q.1 < a)) = [] := by
          rw [List.filter_eq_nil_iff]
          intro q hq
          simpa using (hgt q hq).le
        have e3 : (ts.zip l).filter (fun q => decide (a < q.1)) = ts.zip l := by
          rw [List.filter_eq_self]
          intro q hq
          simpa using hgt q hq
        simp [e1, e2, e3, List.map_snd_zip, hl]
      | succ k =>
        simp only [List.getElem?_cons_succ] at hk
        have hlt : a < t := h1 t (List.mem_of_getElem? hk)
        obtain ⟨i1, i2, i3⟩ := ih h2 l hl k hk
        refine ⟨?_, ?_, ?_⟩
        · simp only [List.take_succ_cons, List.zip_cons_cons, List.filter_cons, decide_eq_true hlt.le, if_true, List.map_cons]
          rw [i1]
        · simp only [List.take_succ_cons, List.zip_cons_cons, List.filter_cons, decide_eq_true hlt, if_true, List.map_cons]
          rw [i2]
        · simp only [List.drop_succ_cons, List.zip_cons_cons, List.filter_cons, decide_eq_false (not_lt.2 hlt.le)]
          rw [i3]
          simp

/-- everything that a successful restoration means -/
theorem load_ok (lifetime : Bool) (fresh : String → OutVar R) (f : OutFile K R) (lastT : K) (s : String → OutVar R)
    (hok : loadFromOutput lifetime false fresh f lastT = .ok s) :
    ∃ iT iH iS, argminAbs f.t lastT = .ok iT ∧ argminAbs f.tHist lastT = .ok iH ∧ argminAbs f.tSc lastT = .ok iS ∧
      ∀ v, s v = (restoredVar lifetime f iT iH iS v).getD (fresh v) := by
  unfold loadFromOutput at hok
  rw [if_neg Bool.false_ne_true] at hok
  obtain ⟨iT, h1, hok⟩ := bind_ok hok
  obtain ⟨iH, h2, hok⟩ := bind_ok hok
  obtain ⟨iS, h3, hok⟩ := bind_ok hok
  exact ⟨iT, iH, iS, h1, h2, h3, fun v => by rw [← Except.ok.inj hok]⟩

theorem everyPassage_pass : ∀ v ∈ everyPassage, v ∈ passNames := by decide +kernel

theorem everyStep_step : ∀ v ∈ everyStep, v ∈ stepNames := by decide +kernel

theorem neverChange_const (b : Bool) : ∀ v ∈ neverChange b, v ∈ constNames b := by cases b <;> decide +kernel

theorem pass_not_step : ∀ v ∈ passNames, v ∉ stepNames := by decide +kernel

theorem const_not (b : Bool) : ∀ v ∈ constNames b, v ∉ stepNames ∧ v ∉ passNames := by cases b <;> decide +kernel

/-- **C56** (partial): for the series on the passage time base, a restart from a checkpoint at a passage in the file restores
exactly the records up to and including the checkpoint, so that with the records that an uninterrupted run makes later the
series is the one of the uninterrupted run. Missing: the time base itself, the step-by-step series and the energy histograms,
see `C56_violated_steps` and the following. -/
theorem C56_passages_partial (lifetime : Bool) (fresh : String → OutVar R) (f : OutFile K R) (lastT : K)
    (s : String → OutVar R) (hok : loadFromOutput lifetime false fresh f lastT = .ok s) (hp : f.tHist.Pairwise (· < ·))
    (hmem : lastT ∈ f.tHist) (v : String) (hv : v ∈ everyPassage) (l : List R) (hl : f.var v = some (.series l))
    (hlen : l.length = f.tHist.length) :
    ∃ l0, s v = .series l0 ∧ l0 = ((f.tHist.zip l).filter (fun q => decide (q.1 ≤ lastT))).map Prod.snd ∧
      l0 ++ ((f.tHist.zip l).filter (fun q => decide (lastT < q.1))).map Prod.snd = l := by
  obtain ⟨iT, iH, iS, -, h2, -, h4⟩ := load_ok lifetime fresh f lastT s hok
  obtain ⟨k, hk⟩ := List.getElem?_of_mem hmem
  rw [argmin_mem f.tHist lastT hp k hk] at h2
  have := Except.ok.inj h2
  subst this
  obtain ⟨t1, -, t3⟩ := take_le f.tHist hp l hlen lastT k hk
  refine ⟨l.take (k + 1), ?_, t1, ?_⟩
  · rw [h4]
    unfold restoredVar
    rw [if_neg (pass_not_step v (everyPassage_pass v hv)), if_pos (everyPassage_pass v hv), hl]
    rfl
  · rw [← t3]
    exact List.take_append_drop _ _

theorem restore_const (lifetime : Bool) (fresh : String → OutVar R) (f : OutFile K R) (lastT : K) (s : String → OutVar R)
    (hok : loadFromOutput lifetime false fresh f lastT = .ok s) (v : String) (hv : v ∈ constNames lifetime) (x : OutVar R)
    (hx : f.var v = some x) : s v = x := by
  obtain ⟨iT, iH, iS, -, -, -, h4⟩ := load_ok lifetime fresh f lastT s hok
  rw [h4]
  unfold restoredVar
  rw [if_neg (const_not _ v hv).1, if_neg (const_not _ v hv).2, if_pos hv, hx]
  rfl

/-- **C56**: what does not depend on time is restored unchanged. -/
theorem C56_constants (lifetime : Bool) (fresh : String → OutVar R) (f : OutFile K R) (lastT : K) (s : String → OutVar R)
    (hok : loadFromOutput lifetime false fresh f lastT = .ok s) (v : String) (hv : v ∈ neverChange lifetime) (x : OutVar R)
    (hx : f.var v = some x) : s v = x :=
  restore_const lifetime fresh f lastT s hok v (neverChange_const lifetime v hv) x hx

/-- **C56 fails for the density at the probes**: it is kept whole, with the records made after the checkpoint. -/
theorem C56_violated_probes (lifetime : Bool) (fresh : String → OutVar R) (f : OutFile K R) (lastT : K)
    (s : String → OutVar R) (hok : loadFromOutput lifetime false fresh f lastT = .ok s) (x : OutVar R)
    (hx : f.var "el_dens_at_probes" = some x) : s "el_dens_at_probes" = x :=
  restore_const lifetime fresh f lastT s hok _ (by cases lifetime <;> decide +kernel) x hx

/-- **C56 fails for the step-by-step series**: the record at the time of the checkpoint is dropped, in every restart. -/
theorem C56_violated_steps (lifetime : Bool) (fresh : String → OutVar R) (f : OutFile K R) (lastT : K)
    (s : String → OutVar R) (hok : loadFromOutput lifetime false fresh f lastT = .ok s) (hp : f.t.Pairwise (· < ·))
    (hmem : lastT ∈ f.t) (v : String) (hv : v ∈ everyStep) (l : List R) (hl : f.var v = some (.series l))
    (hlen : l.length = f.t.length) :
    ∃ l0, s v = .series l0 ∧ l0 = ((f.t.zip l).filter (fun q => decide (q.1 < lastT))).map Prod.snd ∧
      l0 ++ ((f.t.zip l).filter (fun q => decide (lastT < q.1))).map Prod.snd ≠ l := by
  obtain ⟨iT, iH, iS, h2, -, -, h4⟩ := load_ok lifetime fresh f lastT s hok
  obtain ⟨k, hk⟩ := List.getElem?_of_mem hmem
  rw [argmin_mem f.t lastT hp k hk] at h2
  have := Except.ok.inj h2
  subst this
  obtain ⟨-, t2, t3⟩ := take_le f.t hp l hlen lastT k hk
  have hkl : k < l.length := by
    rw [hlen]
    exact (List.getElem?_eq_some_iff.1 hk).1
  refine ⟨l.take k, ?_, t2, ?_⟩
  · rw [h4]
    unfold restoredVar
    rw [if_pos (everyStep_step v hv), hl]
    rfl
  · rw [← t3]
    intro h
    have := congrArg List.length h
    simp only [List.length_append, List.length_take, List.length_drop] at this
    omega

/-- **C56 fails for the passage times, the lifetime histograms and the energy histograms by segment**: they are never restored;
the series starts again from scratch. -/
theorem C56_violated_times (lifetime : Bool) (fresh : String → OutVar R) (f : OutFile K R) (lastT : K)
    (s : String → OutVar R) (hok : loadFromOutput lifetime false fresh f lastT = .ok s) :
    ∀ v ∈ lostSeries, s v = fresh v := by
  obtain ⟨iT, iH, iS, -, -, -, h4⟩ := load_ok lifetime fresh f lastT s hok
  intro v hv
  have hn : v ∉ stepNames ∧ v ∉ passNames ∧ v ∉ constNames lifetime ∧ v ≠ "t_sc_video" := by
    revert hv
    revert v
    cases lifetime <;> decide +kernel
  rw [h4]
  unfold restoredVar
  rw [if_neg hn.1, if_neg hn.2.1, if_neg hn.2.2.1, if_neg hn.2.2.2]
  rfl

/-- **C56 fails for the energy histograms**: as many records are kept as there were passages up to the checkpoint, whatever the
times of the records. -/
theorem C56_violated_energy (lifetime : Bool) (fresh : String → OutVar R) (f : OutFile K R) (lastT : K)
    (s : String → OutVar R) (hok : loadFromOutput lifetime false fresh f lastT = .ok s) (hp : f.tHist.Pairwise (· < ·))
    (k : ℕ) (hk : f.tHist[k]? = some lastT) (l : List R) :
    ∀ v ∈ everyEnergy, f.var v = some (.series l) →
      s v = .series (l.take (k + 1)) := by
  obtain ⟨iT, iH, iS, -, h2, -, h4⟩ := load_ok lifetime fresh f lastT s hok
  rw [argmin_mem f.tHist lastT hp k hk] at h2
  have := Except.ok.inj h2
  subst this
  intro v hv hl
  have hn : v ∉ stepNames ∧ v ∈ passNames := by
    clear hl
    revert hv
    revert v
    decide +kernel
  rw [h4]
  unfold restoredVar
  rw [if_neg hn.1, if_pos hn.2, hl]
  rfl

/-- **C56 fails for the space-charge energy**: its times are cut at the checkpoint but the energies are not, so that they no
longer match whenever the file goes beyond the checkpoint. -/
theorem C56_violated_sc (lifetime : Bool) (fresh : String → OutVar R) (f : OutFile K R) (lastT : K)
    (s : String → OutVar R) (hok : loadFromOutput lifetime false fresh f lastT = .ok s) (hp : f.tSc.Pairwise (· < ·))
    (hmem : lastT ∈ f.tSc) (hbeyond : ∃ t ∈ f.tSc, lastT < t) (lt lu : List R) (hlt : f.var "t_sc_video" = some (.series lt))
    (hlu : f.var "U_sc_eV" = some (.series lu)) (h1 : lt.length = f.tSc.length) (h2 : lu.length = f.tSc.length) :
    ∃ a b, s "t_sc_video" = .series a ∧ s "U_sc_eV" = .series b ∧ a.length < b.length := by
  have hu := restore_const lifetime fresh f lastT s hok "U_sc_eV" (by cases lifetime <;> decide +kernel) _ hlu
  obtain ⟨iT, iH, iS, -, -, h3, h4⟩ := load_ok lifetime fresh f lastT s hok
  obtain ⟨k, hk⟩ := List.getElem?_of_mem hmem
  rw [argmin_mem f.tSc lastT hp k hk] at h3
  have := Except.ok.inj h3
  subst this
  refine ⟨lt.take (k + 1), lu, ?_, hu, ?_⟩
  · rw [h4]
    unfold restoredVar
    rw [if_neg (by decide +kernel), if_neg (by decide +kernel), if_neg (by cases lifetime <;> decide +kernel), if_pos rfl, hlt]
    rfl
  · obtain ⟨t, ht, hgt⟩ := hbeyond
    obtain ⟨j, hj⟩ := List.getElem?_of_mem ht
    obtain ⟨hj1, hj2⟩ := List.getElem?_eq_some_iff.1 hj
    obtain ⟨hk1, hk2⟩ := List.getElem?_eq_some_iff.1 hk
    have hkj : k < j := by
      by_contra hc
      rcases Nat.lt_or_ge j k with hlt' | hge
      · have := List.pairwise_iff_getElem.1 hp j k hj1 hk1 hlt'
        rw [hj2, hk2] at this
        exact absurd hgt (not_lt.2 this.le)
      · have : j = k := by omega
        subst this
        rw [hj2] at hk2
        exact absurd hgt (by rw [hk2]; exact lt_irrefl _)
    rw [List.length_take]
    omega

/-- **C56**: these are all the contents of the main output apart from the tables of the surface model and what the user adds, so
that the theorems above say what a restart does with each of them. -/
theorem C56_all_covered {V : Type} (o : OutSrc V) (hso : o.saveOnly = none) (d : List (String × V)) (hok : buildOutp o = .ok d) :
    ∀ k ∈ d.map Prod.fst, CustomName o k ∨ "sey_test_del_".toList <+: k.toList ∨ "emit_ene_".toList <+: k.toList ∨
      k ∈ everyStep ∨ k ∈ everyPassage ∨ k ∈ everyEnergy ∨ k ∈ neverChange o.lifetime ∨ k ∈ lostSeries ∨
      k = "t_sc_video" ∨ k = "U_sc_eV" ∨ k = "el_dens_at_probes" := by
  have key : ∀ lt ex de cr el pr : Bool, ∀ k ∈ litNames lt ex de cr el pr, "emit_ene_".toList <+: k.toList ∨
      k ∈ everyStep ∨ k ∈ everyPassage ∨ k ∈ everyEnergy ∨ k ∈ neverChange lt ∨ k ∈ lostSeries ∨
      k = "t_sc_video" ∨ k = "U_sc_eV" ∨ k = "el_dens_at_probes" := by
    decide +kernel
  intro k hk
  unfold buildOutp at hok
  rw [hso] at hok
  cases hf : fullDict o with
  | error x => rw [hf] at hok; exact absurd hok (by simp)
  | ok d' =>
    rw [hf] at hok
    have hd := Except.ok.inj hok
    subst hd
    cases he : eneDict o with
    | error x => unfold fullDict at hf; rw [he] at hf; exact absurd hf (by simp)
    | ok e =>
      rcases (mem_keys_fullDict o e _ he hf k).1 hk with h | h
      · rw [(baseDict_perm o e he).mem_iff, List.mem_append] at h
        rcases h with h | h
        · exact Or.inr (Or.inr (key _ _ _ _ _ _ k h))
        · unfold famNames at h
          rcases List.mem_append.1 h with h | h
          · obtain ⟨p, hp, rfl⟩ := List.mem_map.1 h
            refine Or.inr (Or.inl ?_)
            rw [String.append_assoc, String.toList_append]
            exact List.prefix_append _ _
          · split at h
            · obtain ⟨p, hp, rfl⟩ := List.mem_map.1 h
              refine Or.inr (Or.inr (Or.inl ?_))
              rw [String.append_assoc, String.toList_append]
              exact (by decide +kernel : "emit_ene_".toList <+: "emit_ene_test_".toList).trans (List.prefix_append _ _)
            · simp at h
      · exact Or.inl h

end

/-! A file with passages at 1, 2, 3, steps at 0.5, 1, ..., energy records at every half, restarted at 2. -/

def fileToy : OutFile ℚ ℚ where
  t := [1 / 2, 1, 3 / 2, 2, 5 / 2, 3]
  tHist := [1, 2, 3]
  tSc := [1, 2, 3]
  var := fun v =>
    if v = "t" then some (.series [1 / 2, 1, 3 / 2, 2, 5 / 2, 3])
    else if v = "Nel_timep" then some (.series [10, 20, 30, 40, 50, 60])
    else if v = "t_hist" then some (.series [1, 2, 3])
    else if v = "nel_hist" then some (.series [7, 8, 9])
    else if v = "t_En_hist" then some (.series [1 / 2, 1, 3 / 2, 2, 5 / 2, 3])
    else if v = "t_sc_video" then some (.series [1, 2, 3])
    else if v = "U_sc_eV" then some (.series [5, 6, 7])
    else none

/-- the hypotheses of C56 are met, and its failures are visible: the record at 2 is missing from the step-by-step series, the
energy records at 1.5 and 2 from the energy histograms, and the passage times are gone -/
example : ∃ s, loadFromOutput false false (fun _ => .series []) fileToy 2 = .ok s ∧
    (s "nel_hist" = .series [7, 8] ∧ s "Nel_timep" = .series [10, 20, 30] ∧ s "t" = .series [1 / 2, 1, 3 / 2] ∧
      s "t_hist" = .series [] ∧ s "t_En_hist" = .series [1 / 2, 1] ∧ s "t_sc_video" = .series [1, 2] ∧
      s "U_sc_eV" = .series [5, 6, 7]) :=
  exists_ok (by decide +kernel)

example : fileToy.tHist.Pairwise (· < ·) ∧ fileToy.t.Pairwise (· < ·) ∧ (2 : ℚ) ∈ fileToy.tHist ∧ (2 : ℚ) ∈ fileToy.t ∧
    (∃ t ∈ fileToy.tSc, (2 : ℚ) < t) := by decide +kernel

end PyECLOUD
