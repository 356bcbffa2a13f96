/-
Helper lemmas about association lists used as Python dictionaries.
-/
import Verif.Spec.OutDict
import Mathlib.Data.List.Nodup
import Mathlib.Data.List.Basic

namespace PyECLOUD

variable {V : Type}

theorem lookup_ne {j : String} {p : String × V} (h : j ≠ p.1) (d : List (String × V)) :
    (p :: d).lookup j = d.lookup j := by
  have hb : (j == p.1) = false := beq_eq_false_iff_ne.2 h
  rw [List.lookup_cons, hb]

theorem lookup_eq {j : String} {p : String × V} (h : j = p.1) (d : List (String × V)) :
    (p :: d).lookup j = some p.2 := by
  have hb : (j == p.1) = true := beq_iff_eq.2 h
  rw [List.lookup_cons, hb]

theorem outSet_lookup (k : String) (v : V) (d : List (String × V)) (j : String) :
    (outSet k v d).lookup j = if j = k then some v else d.lookup j := by
  induction d with
  | nil =>
    by_cases h : j = k
    · rw [if_pos h]
      exact lookup_eq h []
    · rw [if_neg h]
      exact lookup_ne h []
  | cons p d ih =>
    by_cases ha : p.1 = k
    · rw [outSet, if_pos ha]
      by_cases h : j = k
      · rw [if_pos h]
        exact lookup_eq h d
      · rw [if_neg h, lookup_ne (p := (k, v)) h, lookup_ne (by rw [ha]; exact h)]
    · rw [outSet, if_neg ha]
      by_cases h : j = p.1
      · rw [lookup_eq h, lookup_eq h, if_neg (by rw [h]; exact ha)]
      · rw [lookup_ne h, lookup_ne h, ih]

theorem outUpdate_lookup (e d : List (String × V)) (j : String) :
    (outUpdate d e).lookup j = (e.reverse.lookup j).or (d.lookup j) := by
  induction e generalizing d with
  | nil => simp [outUpdate]
  | cons p e ih =>
    have h := ih (outSet p.1 p.2 d)
    simp only [outUpdate, List.foldl_cons] at h ⊢
    rw [h, outSet_lookup, List.reverse_cons, List.lookup_append, Option.or_assoc]
    by_cases hj : j = p.1
    · rw [if_pos hj, lookup_eq hj]
      rfl
    · rw [if_neg hj, lookup_ne hj]
      rfl

theorem mem_keys_outSet (k : String) (v : V) (d : List (String × V)) (j : String) :
    j ∈ (outSet k v d).map Prod.fst ↔ j = k ∨ j ∈ d.map Prod.fst := by
  induction d with
  | nil => simp [outSet]
  | cons p d ih =>
    by_cases h : p.1 = k
    · subst h
      simp [outSet]
    · simp only [outSet, h, if_false, List.map_cons, List.mem_cons, ih]
      tauto

theorem nodup_outSet (k : String) (v : V) (d : List (String × V)) (hd : (d.map Prod.fst).Nodup) :
    ((outSet k v d).map Prod.fst).Nodup := by
  induction d with
  | nil => simp [outSet]
  | cons p d ih =>
    have hd' := List.nodup_cons.1 hd
    by_cases h : p.1 = k
    · simp only [outSet, h, if_true, List.map_cons]
      rw [h] at hd'
      exact List.nodup_cons.2 hd'
    · simp only [outSet, h, if_false, List.map_cons]
      refine List.nodup_cons.2 ⟨?_, ih hd'.2⟩
      rw [mem_keys_outSet]
      rintro (h' | h')
      · exact h h'
      · exact hd'.1 h'

theorem mem_keys_outUpdate (e d : List (String × V)) (j : String) :
    j ∈ (outUpdate d e).map Prod.fst ↔ j ∈ d.map Prod.fst ∨ j ∈ e.map Prod.fst := by
  induction e generalizing d with
  | nil => simp [outUpdate]
  | cons p e ih =>
    have h := ih (outSet p.1 p.2 d)
    simp only [outUpdate, List.foldl_cons] at h ⊢
    rw [h, mem_keys_outSet, List.map_cons, List.mem_cons]
    tauto

theorem nodup_outUpdate (e d : List (String × V)) (hd : (d.map Prod.fst).Nodup) :
    ((outUpdate d e).map Prod.fst).Nodup := by
  induction e generalizing d with
  | nil => simpa [outUpdate] using hd
  | cons p e ih =>
    simp only [outUpdate, List.foldl_cons]
    exact ih _ (nodup_outSet p.1 p.2 d hd)

theorem lookup_of_mem {d : List (String × V)} (hd : (d.map Prod.fst).Nodup) {k : String} {v : V}
    (h : (k, v) ∈ d) : d.lookup k = some v := by
  induction d with
  | nil => simp at h
  | cons p d ih =>
    have hd' := List.nodup_cons.1 hd
    rcases List.mem_cons.1 h with h' | h'
    · subst h'
      exact lookup_eq (p := (k, v)) rfl d
    · have hne : k ≠ p.1 := by
        rintro rfl
        exact hd'.1 (List.mem_map.2 ⟨(p.1, v), h', rfl⟩)
      rw [lookup_ne hne]
      exact ih hd'.2 h'

theorem mem_of_lookup {d : List (String × V)} {k : String} {v : V} (h : d.lookup k = some v) : (k, v) ∈ d := by
  induction d with
  | nil => simp at h
  | cons p l ih =>
    by_cases hp : k = p.1
    · rw [lookup_eq hp] at h
      have h := Option.some.inj h
      subst hp
      subst h
      exact List.mem_cons_self
    · rw [lookup_ne hp] at h
      exact List.mem_cons_of_mem _ (ih h)

theorem lookup_rev_of_mem {d : List (String × V)} (hd : (d.map Prod.fst).Nodup) {k : String} {v : V}
    (h : (k, v) ∈ d) : d.reverse.lookup k = some v := by
  refine lookup_of_mem ?_ (by simpa using h)
  rw [List.map_reverse]
  exact List.nodup_reverse.2 hd

theorem lookup_none_of_not_mem {d : List (String × V)} {k : String} (h : k ∉ d.map Prod.fst) :
    d.lookup k = none := by
  induction d with
  | nil => rfl
  | cons p d ih =>
    have h1 : k ≠ p.1 := fun h' => h (by simp [h'])
    have h2 : k ∉ d.map Prod.fst := fun h' => h (by rw [List.map_cons]; exact List.mem_cons_of_mem _ h')
    rw [lookup_ne h1]
    exact ih h2

theorem lookup_rev_none {d : List (String × V)} {k : String} (h : k ∉ d.map Prod.fst) :
    d.reverse.lookup k = none := by
  refine lookup_none_of_not_mem ?_
  rw [List.map_reverse]
  simpa using h

theorem lookup_isSome_iff {d : List (String × V)} {k : String} :
    (∃ v, d.lookup k = some v) ↔ k ∈ d.map Prod.fst := by
  constructor
  · rintro ⟨v, h⟩
    by_contra hk
    rw [lookup_none_of_not_mem hk] at h
    exact absurd h (by simp)
  · intro h
    induction d with
    | nil => simp at h
    | cons p d ih =>
      by_cases hk : k = p.1
      · subst hk
        exact ⟨p.2, lookup_eq rfl d⟩
      · rw [List.map_cons, List.mem_cons] at h
        obtain ⟨v, hv⟩ := ih (h.resolve_left hk)
        refine ⟨v, ?_⟩
        rw [lookup_ne hk]
        exact hv

theorem lookup_map_snd (f : V → V) (d : List (String × V)) (k : String) :
    (d.map (fun p => (p.1, f p.2))).lookup k = (d.lookup k).map f := by
  induction d with
  | nil => rfl
  | cons p d ih =>
    rw [List.map_cons]
    by_cases h : k = p.1
    · rw [lookup_eq (p := (p.1, f p.2)) h, lookup_eq h]
      rfl
    · rw [lookup_ne (p := (p.1, f p.2)) h, lookup_ne h, ih]

theorem hasHist_iff (l : List Char) : hasHist l = true ↔ "hist".toList <:+: l := by
  induction l with
  | nil => simp [hasHist]
  | cons c l ih =>
    rw [hasHist, Bool.or_eq_true, ih, List.infix_cons_iff, List.isPrefixOf_iff_prefix]

/-- everything written before the customised observables, in the order of writing -/
def baseDict (s : OutSrc V) (e : List (String × V)) : List (String × V) :=
  s.read outpKeys ++ lifetimeDict s ++ seyDict s ++ e ++ s.read (sbsKeys s)

/-- everything written, in the order of writing -/
theorem fullDict_lookup (s : OutSrc V) (e d : List (String × V)) (he : eneDict s = .ok e)
    (h : fullDict s = .ok d)
    (hb : ((s.read (sbsKeys s)).map Prod.fst).Nodup) (hb0 : ((s.read outpKeys).map Prod.fst).Nodup) (k : String) :
    d.lookup k = ((s.once.reverse.lookup k).or ((s.pbp.reverse.lookup k).or
      ((s.sbs.reverse.lookup k).or ((baseDict s e).reverse.lookup k)))).map s.conv := by
  unfold fullDict at h
  rw [he] at h
  have h := Except.ok.inj h
  subst h
  have h1 : (sbsDict s).reverse.lookup k = (s.sbs.reverse.lookup k).or ((s.read (sbsKeys s)).reverse.lookup k) := by
    have hn : ((sbsDict s).map Prod.fst).Nodup := nodup_outUpdate _ _ hb
    by_cases hk : k ∈ (sbsDict s).map Prod.fst
    · obtain ⟨v, hv⟩ := lookup_isSome_iff.2 hk
      have hm : (k, v) ∈ sbsDict s := mem_of_lookup hv
      rw [lookup_rev_of_mem hn hm, ← hv]
      unfold sbsDict
      rw [outUpdate_lookup]
      congr 1
      by_cases hk2 : k ∈ (s.read (sbsKeys s)).map Prod.fst
      · obtain ⟨q, hq, rfl⟩ := List.mem_map.1 hk2
        rw [lookup_of_mem hb (v := q.2) hq, lookup_rev_of_mem hb (v := q.2) hq]
      · rw [lookup_none_of_not_mem hk2, lookup_rev_none hk2]
    · rw [lookup_rev_none hk]
      unfold sbsDict at hk
      rw [mem_keys_outUpdate, not_or] at hk
      rw [lookup_rev_none hk.2, lookup_rev_none hk.1]
      rfl
  have h0 : (s.read outpKeys).lookup k = (s.read outpKeys).reverse.lookup k := by
    by_cases hk2 : k ∈ (s.read outpKeys).map Prod.fst
    · obtain ⟨q, hq, rfl⟩ := List.mem_map.1 hk2
      rw [lookup_of_mem hb0 (v := q.2) hq, lookup_rev_of_mem hb0 (v := q.2) hq]
    · rw [lookup_none_of_not_mem hk2, lookup_rev_none hk2]
  rw [lookup_map_snd]
  simp only [outUpdate_lookup, h1, h0, baseDict, List.reverse_append, List.lookup_append, Option.or_assoc]

theorem mem_keys_fullDict (s : OutSrc V) (e d : List (String × V)) (he : eneDict s = .ok e)
    (h : fullDict s = .ok d) (k : String) :
    k ∈ d.map Prod.fst ↔ k ∈ (baseDict s e).map Prod.fst ∨ CustomName s k := by
  unfold fullDict at h
  rw [he] at h
  have h := Except.ok.inj h
  subst h
  rw [List.map_map]
  change k ∈ List.map Prod.fst _ ↔ _
  simp only [mem_keys_outUpdate, sbsDict, baseDict, List.map_append, List.mem_append, CustomName]
  tauto

theorem nodup_fullDict (s : OutSrc V) (d : List (String × V)) (h : fullDict s = .ok d)
    (hb : ((s.read outpKeys).map Prod.fst).Nodup) : (d.map Prod.fst).Nodup := by
  unfold fullDict at h
  cases he : eneDict s with
  | error x => rw [he] at h; exact absurd h (by simp)
  | ok e =>
    rw [he] at h
    have h := Except.ok.inj h
    subst h
    rw [List.map_map]
    change (List.map Prod.fst _).Nodup
    exact nodup_outUpdate _ _ (nodup_outUpdate _ _ (nodup_outUpdate _ _ (nodup_outUpdate _ _
      (nodup_outUpdate _ _ (nodup_outUpdate _ _ hb)))))

/-- The literal names, given the switches. -/
def litNames (lt ex de cr el pr : Bool) : List String :=
  outpKeys.map Prod.fst ++ (if lt then ["lifetime_g_hist", "lifetime_hist", "t_lifetime_hist"] else [])
  ++ ["sey_test_E_impact_eV", "sey_test_cos_theta"]
  ++ (if ex then ["ene_dist_test_cos_theta", "ene_dist_test_E_impact_eV", "emit_ene_g_hist"] else [])
  ++ (["t", "lam_t_array", "Nel_timep", "Nel_imp_time", "Nel_emit_time", "En_imp_eV_time", "En_emit_eV_time",
       "En_kin_eV_time", "cen_density"]
    ++ (if de then ["N_mp_time", "nel_mp_ref_time"] else [])
    ++ (if cr then ["Nel_cross_ion", "N_mp_cross_ion", "DN_cross_ion"] else [])
    ++ (if el then ["En_electric_eV_time"] else [])
    ++ (if pr then ["el_dens_at_probes"] else []))

theorem litNames_nodup : ∀ lt ex de cr el pr : Bool, (litNames lt ex de cr el pr).Nodup := by
  decide +kernel

theorem litNames_family : ∀ lt ex de cr el pr : Bool, ∀ k ∈ litNames lt ex de cr el pr,
    ¬ "sey_test_del_".toList <+: k.toList ∧ ¬ "emit_ene_test_".toList <+: k.toList := by
  decide +kernel

end PyECLOUD
