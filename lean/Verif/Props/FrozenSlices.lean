import Verif.Model.FrozenSlices
import Verif.Props.PyHT

/-!
# The frozen field map in the slice-by-slice mode (C95)
-/

set_option linter.unusedSectionVars false

namespace PyECLOUD

variable {K : Type} [Field K] [LinearOrder K] [IsStrictOrderedRing K] [FloorRing K] {C F : Type}

/-- the slices among the pieces -/
def slicesOf : List (Piece K) → List (SliceIn K)
  | [] => []
  | .unsliced _ :: l => slicesOf l
  | .slice sl :: l => sl :: slicesOf l

/-- The pieces with the `k`-th slice kicked by the `k`-th field, everything else as it was. -/
def kickPieces (kick : F → SliceIn K → SliceIn K) : List F → List (Piece K) → List (Piece K)
  | _, [] => []
  | fs, .unsliced p :: l => .unsliced p :: kickPieces kick fs l
  | [], .slice sl :: l => .slice sl :: kickPieces kick [] l
  | f :: fs, .slice sl :: l => .slice (kick f sl) :: kickPieces kick fs l

/-- the slice restarts the cloud: first slice of the first bunch -/
def SliceIn.first (sl : SliceIn K) : Prop := ∃ i, sl.info = some i ∧ i.parent = some 0 ∧ i.iSlice = 0

theorem ecBunch_saved (g : EcCfg K) (m : EcSim K C F) (force : Bool) (s s1 : EcSt K C F) (np : Bool) (sl : SliceIn K)
    (hs : ¬ sl.first ∨ s.saved = []) (h : ecBunch g m force s sl.info = .ok (s1, np)) : s1.saved = s.saved := by
  unfold ecBunch at h
  split at h
  · rw [← (Prod.mk.inj (Except.ok.inj h)).1]
  · next b i hb =>
    split at h
    · cases h
    · next hmode =>
      by_cases hf : b = 0 ∧ i = 0
      · have hfirst : sl.first := by
          cases hi : sl.info with
          | none => rw [hi] at hb; cases hb
          | some j =>
            rw [hi] at hb
            simp only [Option.bind_some] at hb
            cases hp : j.parent with
            | none => rw [hp] at hb; cases hb
            | some q =>
              rw [hp] at hb
              simp only [Option.map_some, Option.some.injEq, Prod.mk.injEq] at hb
              exact ⟨j, hi, by rw [hp, hb.1, hf.1], by rw [hb.2, hf.2]⟩
        have he : s.saved = [] := hs.resolve_left (fun h => h hfirst)
        have e1 : (ecReinit g m (ecFinalize g s)).saved = s.saved := by
          unfold ecReinit ecFinalize
          simp only [he, List.reverse_nil, ite_self]
        simp only [if_pos hf] at h
        split at h
        · rw [← (Prod.mk.inj (Except.ok.inj h)).1]; exact e1
        · rw [← (Prod.mk.inj (Except.ok.inj h)).1]; exact e1
      · simp only [if_neg hf] at h
        split at h
        · rw [← (Prod.mk.inj (Except.ok.inj h)).1]
        · rw [← (Prod.mk.inj (Except.ok.inj h)).1]

/-- kicks and records of the pieces -/
theorem trackPieces_fields (g : EcCfg K) (m : EcSim K C F) (hg : g.saveField = true) (l : List (Piece K))
    (hi : ∀ sl ∈ slicesOf l, sl.interacts = true) (s s' : EcSt K C F)
    (hf : (∀ sl ∈ slicesOf l, ¬ sl.first) ∨ (s.saved = [] ∧ ∀ sl ∈ (slicesOf l).tail, ¬ sl.first))
    (out : List (Piece K)) (h : trackPieces g m l s = .ok (s', out)) :
    ∃ fs : List F, fs.length = (slicesOf l).length ∧ s'.saved = s.saved ++ fs ∧ out = kickPieces (ecKick g m) fs l := by
  induction l generalizing s out with
  | nil =>
    cases h
    exact ⟨[], rfl, by simp, rfl⟩
  | cons p l ih =>
    cases p with
    | unsliced p =>
      unfold trackPieces at h
      obtain ⟨⟨s2, l2⟩, h3, h4⟩ := bind_ok h
      obtain ⟨e1, e2⟩ := Prod.mk.inj (Except.ok.inj h4)
      subst e1 e2
      obtain ⟨fs, i1, i2, i3⟩ := ih hi s hf l2 h3
      refine ⟨fs, i1, i2, ?_⟩
      rw [i3]
      cases fs <;> rfl
    | slice sl =>
      unfold trackPieces at h
      obtain ⟨⟨s1, sl1⟩, h1, h2⟩ := bind_ok h
      obtain ⟨⟨s2, l2⟩, h3, h4⟩ := bind_ok h2
      obtain ⟨e1, e2⟩ := Prod.mk.inj (Except.ok.inj h4)
      subst e1 e2
      obtain ⟨t1, np, c, c2, b1, -, -, -, -, b2, b3, -⟩ :=
        trackSlice_interacting g m _ s s1 sl sl1 (hi sl (by simp [slicesOf])) h1
      have e3 : t1.saved = s.saved := by
        refine ecBunch_saved g m _ s t1 np sl ?_ b1
        rcases hf with hf | ⟨hf, -⟩
        · exact Or.inl (hf sl (by simp [slicesOf]))
        · exact Or.inr hf
      have ht : ∀ x ∈ slicesOf l, ¬ x.first := by
        intro x hx
        rcases hf with hf | ⟨-, hf⟩
        · exact hf x (List.mem_cons_of_mem _ hx)
        · exact hf x hx
      obtain ⟨fs, i1, i2, i3⟩ := ih (fun x hx => hi x (List.mem_cons_of_mem _ hx)) s1 (Or.inl ht) l2 h3
      refine ⟨m.solve c :: fs, by simp [slicesOf, i1], ?_, ?_⟩
      · rw [i2, b3, if_pos hg, e3, List.append_assoc]; rfl
      · rw [i3, b2]; rfl

theorem pyGet_rev (fs : List F) (k : ℕ) : pyGet fs.reverse (-(k : ℤ) - 1) =
    (match fs[k]? with
     | some f => .ok f
     | none => .error .indexError) := by
  unfold pyGet
  have hneg : (-(k : ℤ) - 1) < 0 := by omega
  simp only [hneg, if_true, List.length_reverse]
  by_cases hk : k < fs.length
  · have h2 : ¬ (-(k : ℤ) - 1 + (fs.length : ℤ) < 0) := by omega
    rw [if_neg h2]
    have h3 : (-(k : ℤ) - 1 + (fs.length : ℤ)).toNat = fs.length - 1 - k := by omega
    rw [h3, List.getElem?_reverse (by omega)]
    have h4 : fs.length - 1 - (fs.length - 1 - k) = k := by omega
    rw [h4]
    cases fs[k]? <;> rfl
  · have h2 : (-(k : ℤ) - 1 + (fs.length : ℤ) < 0) := by omega
    rw [if_pos h2, List.getElem?_eq_none (by omega)]

/-- The calls of one turn. -/
def turnCalls (l : List (Piece K)) : List (MapCall K) := l.map MapCall.track

/-- tracking of a turn from the `k`-th map on -/
theorem frozenCalls_turn (g : EcCfg K) (m : EcSim K C F) (fs : List F) (l : List (Piece K)) (rest : List (MapCall K)) (k : ℕ)
    (h : k + (slicesOf l).length ≤ fs.length) :
    frozenCalls g m fs.reverse (-(k : ℤ)) (turnCalls l ++ rest) =
      (frozenCalls g m fs.reverse (-((k + (slicesOf l).length : ℕ) : ℤ)) rest).map
        (fun r => (r.1, kickPieces (frozenKick g m) (fs.drop k) l ++ r.2)) := by
  induction l generalizing k with
  | nil =>
    simp only [turnCalls, List.map_nil, List.nil_append, slicesOf, List.length_nil, Nat.add_zero]
    cases frozenCalls g m fs.reverse (-(k : ℤ)) rest with
    | error e => rfl
    | ok r => cases hd : fs.drop k <;> rfl
  | cons p l ih =>
    cases p with
    | unsliced p =>
      show (do
        let (sid2, l2) ← frozenCalls g m fs.reverse (-(k : ℤ)) (turnCalls l ++ rest)
        Except.ok (sid2, Piece.unsliced p :: l2)) = _
      rw [ih k h]
      show _ = (frozenCalls g m fs.reverse (-((k + (slicesOf l).length : ℕ) : ℤ)) rest).map _
      cases frozenCalls g m fs.reverse (-((k + (slicesOf l).length : ℕ) : ℤ)) rest with
      | error e => rfl
      | ok r => cases hd : fs.drop k <;> rfl
    | slice sl =>
      have hk : k < fs.length := by
        simp only [slicesOf, List.length_cons] at h
        omega
      have hget : fs[k]? = some fs[k] := List.getElem?_eq_getElem hk
      have hd : fs.drop k = fs[k] :: fs.drop (k + 1) := List.drop_eq_getElem_cons hk
      have hp := pyGet_rev fs k
      rw [hget] at hp
      have e1 : (-(k : ℤ) - 1) = -((k + 1 : ℕ) : ℤ) := by push_cast; ring
      show (do
        let (sid1, p1) ← (do
          let f ← pyGet fs.reverse (-(k : ℤ) - 1)
          Except.ok (-(k : ℤ) - 1, Piece.slice (frozenKick g m f sl)))
        let (sid2, l2) ← frozenCalls g m fs.reverse sid1 (turnCalls l ++ rest)
        Except.ok (sid2, p1 :: l2)) = _
      rw [hp]
      show (do
        let (sid2, l2) ← frozenCalls g m fs.reverse (-(k : ℤ) - 1) (turnCalls l ++ rest)
        Except.ok (sid2, Piece.slice (frozenKick g m fs[k] sl) :: l2)) = _
      have hl : k + 1 + (slicesOf l).length = k + (slicesOf (Piece.slice sl :: l)).length := by
        simp only [slicesOf, List.length_cons]
        omega
      rw [e1, ih (k + 1) (by rw [hl]; exact h), hl, hd]
      cases frozenCalls g m fs.reverse (-((k + (slicesOf (Piece.slice sl :: l)).length : ℕ) : ℤ)) rest with
      | error e => rfl
      | ok r => rfl

/-- **C95** for slices that all interact with the cloud, both kicks enabled and a restart of the map between turns: with the
maps recorded while tracking a beam slice by slice, the same beam gets on every later turn the kicks of the recording, slice
by slice; parts that are not sliced are left alone. Only the first slice may be one that restarts the cloud. -/
theorem C95_turns_partial (g : EcCfg K) (m : EcSim K C F) (hx : g.kickX = true) (hy : g.kickY = true)
    (hp : g.p0 = g.mass * g.gamma * g.beta * g.c) (s : EcSt K C F) (pieces : List (Piece K))
    (hi : ∀ sl ∈ slicesOf pieces, sl.interacts = true) (hf : ∀ sl ∈ (slicesOf pieces).tail, ¬ sl.first)
    (maps : List F) (out : List (Piece K)) (h : recordMaps g m s pieces = .ok (maps, out)) (turns : ℕ) :
    ∃ sid, frozenCalls g m maps 0 (List.replicate turns (turnCalls pieces ++ [MapCall.restart])).flatten =
      .ok (sid, (List.replicate turns out).flatten) := by
  unfold recordMaps at h
  obtain ⟨⟨s1, l⟩, h1, h2⟩ := bind_ok h
  obtain ⟨e1, e2⟩ := Prod.mk.inj (Except.ok.inj h2)
  subst e1 e2
  have hs : (ecReinit { g with saveField := true } m s).saved = [] := rfl
  obtain ⟨fs, i1, i2, i3⟩ := trackPieces_fields { g with saveField := true } m rfl pieces hi _ s1 (Or.inr ⟨hs, hf⟩) _ h1
  rw [hs, List.nil_append] at i2
  have hm : (ecFinalize { g with saveField := true } s1).saved = fs.reverse := by
    show s1.saved.reverse = _
    rw [i2]
  have hk : ecKick { g with saveField := true } m = frozenKick g m := (frozenKick_eq g m hx hy hp).symm
  rw [hm]
  induction turns with
  | zero => exact ⟨0, rfl⟩
  | succ n ih =>
    obtain ⟨sid, ih⟩ := ih
    refine ⟨sid, ?_⟩
    rw [List.replicate_succ, List.flatten_cons, List.append_assoc]
    have := frozenCalls_turn g m fs pieces ([MapCall.restart] ++ (List.replicate n (turnCalls pieces ++ [MapCall.restart])).flatten) 0
      (by omega)
    simp only [Nat.cast_zero, neg_zero, List.drop_zero] at this
    rw [this]
    have h0 : frozenCalls g m fs.reverse (-((0 + (slicesOf pieces).length : ℕ) : ℤ))
        ([MapCall.restart] ++ (List.replicate n (turnCalls pieces ++ [MapCall.restart])).flatten) =
        frozenCalls g m fs.reverse 0 (List.replicate n (turnCalls pieces ++ [MapCall.restart])).flatten := rfl
    rw [h0, ih, List.replicate_succ, List.flatten_cons, i3, hk]
    rfl

/-- Other particles in the same slices: on every turn the `k`-th slice is kicked by the `k`-th recorded field, whatever the
pieces are, as long as there are not more slices than maps; with one slice more the tracking raises. -/
theorem C95_kth_slice (g : EcCfg K) (m : EcSim K C F) (fs : List F) (pieces : List (Piece K)) :
    ((slicesOf pieces).length ≤ fs.length → frozenCalls g m fs.reverse 0 (turnCalls pieces) =
      .ok (-((slicesOf pieces).length : ℤ), kickPieces (frozenKick g m) fs pieces)) ∧
    ((slicesOf pieces).length = fs.length → ∀ sl rest, frozenCalls g m fs.reverse 0
      (turnCalls pieces ++ MapCall.track (Piece.slice sl) :: rest) = .error .indexError) := by
  constructor
  · intro h
    have := frozenCalls_turn g m fs pieces [] 0 (by omega)
    simp only [Nat.cast_zero, neg_zero, List.drop_zero, List.append_nil, Nat.zero_add] at this
    rw [this]
    show Except.ok (_, _ ++ []) = _
    rw [List.append_nil]
  · intro h sl rest
    have := frozenCalls_turn g m fs pieces (MapCall.track (Piece.slice sl) :: rest) 0 (by omega)
    simp only [Nat.cast_zero, neg_zero, List.drop_zero, Nat.zero_add] at this
    rw [this]
    have h2 : frozenCalls g m fs.reverse (-((slicesOf pieces).length : ℤ)) (MapCall.track (Piece.slice sl) :: rest) =
        .error .indexError := by
      show (do
        let (sid1, p1) ← (do
          let f ← pyGet fs.reverse (-((slicesOf pieces).length : ℤ) - 1)
          Except.ok (-((slicesOf pieces).length : ℤ) - 1, Piece.slice (frozenKick g m f sl)))
        let (sid2, l2) ← frozenCalls g m fs.reverse sid1 rest
        Except.ok (sid2, p1 :: l2)) = _
      rw [pyGet_rev, h, List.getElem?_eq_none (by omega)]
      rfl
    rw [h2]
    rfl

/-! ## examples -/

def toyPieces : List (Piece ℚ) :=
  [.slice ⟨5, some ⟨none, some 0, 0⟩, [(1, 0)], [(0, 0)]⟩, .unsliced ⟨3, none, [(7, 7)], [(1, 1)]⟩,
    .slice ⟨5, some ⟨none, some 0, 1⟩, [(2, 0), (1, 1)], [(0, 0), (0, 1)]⟩]

def toySliceCfg : EcCfg ℚ := { ecToyCfg with sliceMode := true, saveField := false }

/-- the hypotheses of `C95_turns_partial` hold for a beam of two slices and an unsliced part -/
example : ∃ r, recordMaps toySliceCfg ecToy ecToySt toyPieces = .ok r ∧
    (r.1.length = 2 ∧ (∀ sl ∈ slicesOf toyPieces, sl.interacts = true) ∧
      frozenCalls toySliceCfg ecToy r.1 0 (turnCalls toyPieces) = .ok (-2, r.2) ∧ r.2 ≠ toyPieces) := by
  refine exists_okT ?_
  decide +kernel

/-- **C95** fails for a beam with a slice that does not interact with the cloud: it is kicked by the map. -/
theorem C95_violated : ∃ r, recordMaps toySliceCfg ecToy ecToySt
      [.slice ⟨5, some ⟨some false, some 0, 0⟩, [(1, 0)], [(0, 0)]⟩] = .ok r ∧
    (r.2 = [.slice ⟨5, some ⟨some false, some 0, 0⟩, [(1, 0)], [(0, 0)]⟩] ∧
      frozenCalls toySliceCfg ecToy r.1 0 [.track (.slice ⟨5, some ⟨some false, some 0, 0⟩, [(1, 0)], [(0, 0)]⟩)] ≠ .ok (-1, r.2)) := by
  refine exists_okT ?_
  decide +kernel

/-- **C95** fails without an explicit restart between the turns, although the metadata of the first slice, which restart the
cloud itself, are there. -/
theorem C95_restart_violated : ∃ r, recordMaps toySliceCfg ecToy ecToySt toyPieces = .ok r ∧
    (frozenCalls toySliceCfg ecToy r.1 0 (turnCalls toyPieces ++ turnCalls toyPieces) = .error .indexError ∧
      (trackPieces { toySliceCfg with saveField := true } ecToy (toyPieces ++ toyPieces) ecToySt).isOk = true) := by
  refine exists_okT ?_
  decide +kernel

end PyECLOUD
