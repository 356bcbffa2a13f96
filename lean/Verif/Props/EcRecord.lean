import Verif.Spec.EcRecord
import Verif.Lemmas.EcRecord

/-!
# Properties C128-C133: recordings of an e-cloud in PyHEADTAIL, its construction and its view of the beam
-/

namespace PyECLOUD

set_option linter.unusedSectionVars false

variable {K : Type} [Field K] [LinearOrder K] [FloorRing K] {C F B V : Type}

theorem wanted_iff (f : RecFlags) (k : RecKind) : f.spread.on k = true ↔ Wanted f k := by
  cases k <;> simp [RecFlags.spread, RecFlags.on, Wanted, or_assoc]

theorem recBunch_whole (g : EcCfg K) (m : EcSim K C F) (hw : g.sliceMode = false) (force : Bool) (s s1 : RecSt K C F B V) (np : Bool)
    (info : Option SliceInfo) (h : recBunch g m force s info = .ok (s1, np)) :
    ecBunch g m force s.ec info = .ok (s1.ec, np) ∧ s1.beam = s.beam ∧ s1.flags = s.flags ∧ s1.recs = s.recs := by
  unfold recBunch at h
  unfold ecBunch
  cases hi : info.bind (fun i => i.parent.map (fun b => (b, i.iSlice))) with
  | none =>
    rw [hi] at h
    cases h
    exact ⟨rfl, rfl, rfl, rfl⟩
  | some p =>
    obtain ⟨b, i⟩ := p
    rw [hi] at h
    dsimp only at h ⊢
    by_cases h0 : b = 0 ∧ i = 0 ∧ g.sliceMode = false
    · rw [if_pos h0] at h; cases h
    · have h1 : ¬(b = 0 ∧ i = 0) := fun q => h0 ⟨q.1, q.2, hw⟩
      rw [if_neg h0, if_neg h1] at h
      rw [if_neg h0, if_neg h1]
      simp only [bind, Except.bind] at h
      by_cases hc : b > s.ec.cur
      · rw [if_pos hc] at h ⊢
        cases h
        exact ⟨rfl, rfl, rfl, rfl⟩
      · rw [if_neg hc] at h ⊢
        cases h
        exact ⟨rfl, rfl, rfl, rfl⟩

theorem sliceCalls_length (g : EcCfg K) (interact : Bool) (pass : ℤ) (t : K) (np first : Bool) (l : List K) :
    (sliceCalls g interact pass t np first l).length = l.length := by
  induction l generalizing t np first with
  | nil => rfl
  | cons a l ih => simp [sliceCalls, ih]

theorem dtArray_ne_nil (Dt : Option K) (hD : ∀ D, Dt = some D → 0 < D) [IsStrictOrderedRing K] (interact : Bool) (dt : K) (l : List K)
    (h : dtArray Dt interact dt = .ok l) : l ≠ [] := by
  unfold dtArray at h
  cases Dt with
  | none => cases h; simp
  | some D =>
    dsimp only at h
    by_cases h1 : dt > D
    · rw [if_pos h1] at h
      cases interact with
      | true => cases h
      | false =>
        rw [if_neg (by simp)] at h
        cases h
        have hD' := hD D rfl
        have : 0 < ⌈dt / D⌉ := Int.ceil_pos.mpr (div_pos (lt_trans hD' h1) hD')
        intro q
        have := congrArg List.length q
        simp only [List.length_replicate, List.length_nil] at this
        omega
    · rw [if_neg h1] at h
      cases h; simp

/-- a slice in the whole-bunch mode, with all quantities wanted ready to be recorded -/
theorem recSlice_spec [IsStrictOrderedRing K] (g : EcCfg K) (m : EcSim K C F) (R : RecSim K C F B V) (hw : g.sliceMode = false)
    (hD : ∀ D, g.Dt = some D → 0 < D) (force : Bool) (s s' : RecSt K C F B V) (sl sl' : SliceIn K)
    (h : recSlice g m R force s sl = .ok (s', sl')) :
    ∃ blk, SliceRec g m R force (s.ec, s.beam) sl (s'.ec, s'.beam) sl' blk ∧ s'.flags = s.flags ∧
      (∀ k, s.flags.on k = true → ∃ q, s.recs k = .list q ∧ s'.recs k = .list (q ++ blk.map (fun v => v k))) ∧
      (∀ k, s.flags.on k = false → s'.recs k = s.recs k) := by
  unfold recSlice at h
  obtain ⟨dts, h1, h2⟩ := bind_ok h
  obtain ⟨⟨s1, np⟩, h3, h4⟩ := bind_ok h2
  obtain ⟨b1, b2, b3, b4⟩ := recBunch_whole g m hw force s s1 np sl.info h3
  have hne : sliceCalls g sl.interacts s1.ec.cur s1.ec.tSim np true dts ≠ [] := fun q =>
    dtArray_ne_nil g.Dt hD _ _ _ h1 (List.length_eq_zero_iff.mp (by rw [← sliceCalls_length g sl.interacts s1.ec.cur s1.ec.tSim np true, q]; rfl))
  obtain ⟨c1, c2, c3, blk, c4, c5, c6, c7, c8⟩ := recCalls_ok g m R _ s1 s' sl sl' h4
  have hb := c3 hne
  refine ⟨blk, ⟨?_, ⟨dts, h1, by rw [c4, sliceCalls_length]⟩, c5 hne, ?_, ?_, ?_⟩, by rw [c2, b3], ?_, ?_⟩
  · unfold trackSlice
    rw [h1]
    simp only [bind, Except.bind]
    rw [b1]
    exact c1
  · intro q1 q2
    show s'.beam = _
    rw [hb]
    unfold beamState beamOf
    have : sl.pos.isEmpty = false := by simpa using q1
    rw [this, q2]
    rfl
  · intro q
    show s'.beam = s.beam
    rw [hb, b2]
    unfold beamState
    rcases q with q | q <;> simp [q]
  · intro v hv k hk
    rw [c6 v hv k hk, hb]
  · intro k hk
    rw [← b3] at hk
    rw [← b4]
    exact c7 k hk hne
  · intro k hk
    rw [← b3] at hk
    rw [← b4]
    exact c8 k (Or.inl hk)

theorem recRev_spec [IsStrictOrderedRing K] (g : EcCfg K) (m : EcSim K C F) (R : RecSim K C F B V) (hw : g.sliceMode = false)
    (hD : ∀ D, g.Dt = some D → 0 < D) (l : List (SliceIn K)) (s s' : RecSt K C F B V) (out : List (SliceIn K))
    (h : recRev g m R l s = .ok (s', out)) :
    ∃ blks, BunchRec g m R l.reverse (s.ec, s.beam) (s'.ec, s'.beam) out.reverse blks ∧ s'.flags = s.flags ∧
      (∀ k q, s.flags.on k = true → s.recs k = .list q →
        s'.recs k = .list (q ++ (blks.flatMap (fun b => (b.map (fun v => v k)).reverse)).reverse)) ∧
      (∀ k, s.flags.on k = false → s'.recs k = s.recs k) := by
  induction l generalizing s out with
  | nil =>
    cases h
    exact ⟨[], BunchRec.nil _, rfl, fun k q _ hq => by simp [hq], fun _ _ => rfl⟩
  | cons sl l ih =>
    unfold recRev at h
    obtain ⟨⟨s1, sl1⟩, h1, h2⟩ := bind_ok h
    obtain ⟨⟨s2, l2⟩, h3, h4⟩ := bind_ok h2
    obtain ⟨e1, e2⟩ := Prod.mk.inj (Except.ok.inj h4)
    subst e1 e2
    obtain ⟨blk, b1, b2, b3, b4⟩ := recSlice_spec g m R hw hD _ s s1 sl sl1 h1
    obtain ⟨blks, i1, i2, i3, i4⟩ := ih s1 l2 h3
    refine ⟨blks ++ [blk], ?_, by rw [i2, b2], ?_, ?_⟩
    · rw [List.reverse_cons, List.reverse_cons]
      refine BunchRec.last _ _ _ _ _ _ _ _ _ ?_ i1
      rw [List.isEmpty_reverse]
      exact b1
    · intro k q hk hq
      obtain ⟨q', q1, q2⟩ := b3 k hk
      rw [hq] at q1
      cases q1
      rw [i3 k _ (by rw [b2]; exact hk) q2]
      simp [List.flatMap_append, List.append_assoc]
    · intro k hk
      rw [i4 k (by rw [b2]; exact hk)]
      exact b4 k hk

/-- **C128** (recorded). After the tracking of a bunch every wanted quantity has been recorded at every cloud step of this bunch and of no
other, ordered as the slices in the bunch are; what is not wanted is as it was before. -/
theorem C128_recorded [IsStrictOrderedRing K] (g : EcCfg K) (m : EcSim K C F) (R : RecSim K C F B V) (hw : g.sliceMode = false)
    (hD : ∀ D, g.Dt = some D → 0 < D) (s s' : RecSt K C F B V) (slices out : List (SliceIn K))
    (ho : g.once = true → s.ec.nTracks = 0) (h : recTrack g m R s slices = .ok (s', out)) :
    ∃ e blks, BunchRec g m R slices (ecReinit g m s.ec, s.beam) (e, s'.beam) out blks ∧
      s'.ec.cloud = e.cloud ∧ s'.ec.field = e.field ∧
      (∀ k, Wanted s.flags k → s'.recs k = .arr (blks.flatMap (fun b => (b.map (fun v => v k)).reverse))) ∧
      (∀ k, ¬Wanted s.flags k → s'.recs k = s.recs k) := by
  unfold recTrack at h
  have hskip : ¬(g.once && decide (s.ec.nTracks > 0)) = true := by
    intro q
    rw [Bool.and_eq_true, decide_eq_true_eq] at q
    have := ho q.1
    omega
  rw [if_neg hskip] at h
  obtain ⟨⟨s1, l⟩, h1, h2⟩ := bind_ok h
  obtain ⟨r, h3, h4⟩ := bind_ok h2
  obtain ⟨e1, e2⟩ := Prod.mk.inj (Except.ok.inj h4)
  subst e1 e2
  obtain ⟨blks, b1, b2, b3, b4⟩ := recRev_spec g m R hw hD _ _ s1 l h1
  rw [List.reverse_reverse] at b1
  refine ⟨s1.ec, blks, b1, rfl, rfl, fun k hk => ?_, fun k hk => ?_⟩
  · have hk' : s.flags.spread.on k = true := (wanted_iff s.flags k).mpr hk
    have hl := b3 k [] hk' (by simp [recReinit, recClear, hk'])
    obtain ⟨q, q1, q2⟩ := (recFinalize_ok _ _ _ h3 k).1 (by rw [b2]; exact hk')
    show r k = _
    rw [hl] at q1
    rcases q1 with q1 | q1
    · rw [q2, ← RecAttr.list.inj q1, List.nil_append, List.reverse_reverse]
    · cases q1
  · have hk' : s.flags.spread.on k = false := by
      rw [← Bool.not_eq_true]
      exact fun q => hk ((wanted_iff s.flags k).mp q)
    show r k = _
    rw [(recFinalize_ok _ _ _ h3 k).2 (by rw [b2]; exact hk'), b4 k hk']
    simp [recReinit, recClear, hk']

/-- **C128** (passive). Recording changes nothing of the tracking: with any flags, and whatever was recorded before, a bunch gets the
same kicks, the cloud the same state, and the tracking fails only where it fails without recording. -/
theorem C128_passive (g : EcCfg K) (m : EcSim K C F) (R : RecSim K C F B V) (s : RecSt K C F B V) (slices : List (SliceIn K)) :
    (recTrack g m R s slices).map (fun r => (r.1.ec, r.2)) = trackBunch g m s.ec slices := by
  unfold recTrack trackBunch
  by_cases hs : (g.once && decide (s.ec.nTracks > 0)) = true
  · rw [if_pos hs, if_pos hs]; rfl
  · rw [if_neg hs, if_neg hs]
    obtain ⟨b1, b2⟩ := recRev_passive g m R slices.reverse (recReinit g m s) (prepared_clear _ _)
    have b1' : _ = trackRev g m slices.reverse (ecReinit g m s.ec) := b1
    simp only [bind, Except.bind]
    rw [← b1']
    cases h : recRev g m R slices.reverse (recReinit g m s) with
    | error e => rfl
    | ok r1 =>
      obtain ⟨s1, l⟩ := r1
      obtain ⟨r, hr⟩ := recFinalize_exists s1.flags s1.recs (b2 _ h)
      simp only [Except.map, hr]

/-- one value per slice where every slice interacts -/
theorem interacting_single (g : EcCfg K) (m : EcSim K C F) (R : RecSim K C F B V) (force : Bool) (s s' : EcSt K C F × B)
    (sl sl' : SliceIn K) (blk : List (RecKind → V)) (h : SliceRec g m R force s sl s' sl' blk) (hi : sl.interacts = true) :
    blk = [fun k => if k.isBeam then R.ofBeam s'.2 k else R.ofCloud s'.1.cloud s'.1.field k] := by
  obtain ⟨dts, h1, h2⟩ := h.steps
  have : dts.length = 1 := by
    rw [hi] at h1
    unfold dtArray at h1
    cases hDt : g.Dt with
    | none => rw [hDt] at h1; cases h1; rfl
    | some D =>
      rw [hDt] at h1
      dsimp only at h1
      by_cases hd : g.dtSlice sl > D
      · rw [if_pos hd, if_pos rfl] at h1; cases h1
      · rw [if_neg hd] at h1; cases h1; rfl
  rw [this] at h2
  obtain ⟨v, hv⟩ := List.length_eq_one_iff.mp h2
  subst hv
  have := h.last
  simp only [List.getLast?_singleton, Option.some.injEq] at this
  rw [this]

/-- **C128** (index). Where every slice of the bunch interacts with the cloud, entry `i` of a record belongs to slice `i`: there are as many
entries as slices. -/
theorem C128_index [IsStrictOrderedRing K] (g : EcCfg K) (m : EcSim K C F) (R : RecSim K C F B V) (hw : g.sliceMode = false)
    (hD : ∀ D, g.Dt = some D → 0 < D) (s s' : RecSt K C F B V) (slices out : List (SliceIn K))
    (ho : g.once = true → s.ec.nTracks = 0) (hi : ∀ sl ∈ slices, sl.interacts = true)
    (h : recTrack g m R s slices = .ok (s', out)) (k : RecKind) (hk : Wanted s.flags k) :
    ∃ l, s'.recs k = .arr l ∧ l.length = slices.length := by
  obtain ⟨e, blks, b1, -, -, b2, -⟩ := C128_recorded g m R hw hD s s' slices out ho h
  refine ⟨_, b2 k hk, ?_⟩
  clear b2 h ho
  generalize ecReinit g m s.ec = e0 at b1
  generalize s.beam = bm at b1
  generalize hp : (e0, bm) = p0 at b1
  generalize hq : (e, s'.beam) = p1 at b1
  clear hp hq
  induction b1 with
  | nil => rfl
  | last slices sl s s1 s2 sl1 out blk blks h1 h2 ih =>
    have := interacting_single g m R _ _ _ _ _ _ h1 (hi sl (by simp))
    rw [List.flatMap_append, List.length_append, ih (fun x hx => hi x (by simp [hx])), List.length_append, this]
    rfl

/-- **C129** (partial: slices with particles that interact with the cloud). The recorded distribution, potential and field of the beam are,
slice by slice, those of the particles of the slice in the frame of the cloud. -/
theorem C129_beam_partial [IsStrictOrderedRing K] (g : EcCfg K) (m : EcSim K C F) (R : RecSim K C F B V) (hw : g.sliceMode = false)
    (hD : ∀ D, g.Dt = some D → 0 < D) (s s' : RecSt K C F B V) (slices out : List (SliceIn K))
    (ho : g.once = true → s.ec.nTracks = 0) (hi : ∀ sl ∈ slices, sl.interacts = true ∧ sl.pos ≠ [])
    (h : recTrack g m R s slices = .ok (s', out)) (k : RecKind) (hb : k = .beamRho ∨ k = .beamPhi ∨ k = .beamField)
    (hk : Wanted s.flags k) :
    s'.recs k = .arr (slices.map (fun sl => R.ofBeam (R.scatter (sl.pos.map (fun q => (q.1 + g.xOff, q.2 + g.yOff)))) k)) := by
  obtain ⟨e, blks, b1, -, -, b2, -⟩ := C128_recorded g m R hw hD s s' slices out ho h
  rw [b2 k hk]
  congr 1
  have hkb : k.isBeam = true := by rcases hb with q | q | q <;> subst q <;> rfl
  clear b2 h ho
  generalize ecReinit g m s.ec = e0 at b1
  generalize s.beam = bm at b1
  generalize hp : (e0, bm) = p0 at b1
  generalize hq : (e, s'.beam) = p1 at b1
  clear hp hq
  induction b1 with
  | nil => rfl
  | last slices sl s s1 s2 sl1 out blk blks h1 h2 ih =>
    have hsl := hi sl (by simp)
    have := interacting_single g m R _ _ _ _ _ _ h1 hsl.1
    rw [List.flatMap_append, ih (fun x hx => hi x (by simp [hx])), List.map_append, this]
    simp [hkb, h1.renewed hsl.2 hsl.1]

/-- **C129** fails for a slice without particles, or one that does not interact: what is recorded for it is the beam of the slice tracked
before it. -/
theorem C129_stale_violated [IsStrictOrderedRing K] (g : EcCfg K) (m : EcSim K C F) (R : RecSim K C F B V) (hw : g.sliceMode = false)
    (hD : ∀ D, g.Dt = some D → 0 < D) (s s' : RecSt K C F B V) (a b : SliceIn K) (out : List (SliceIn K))
    (ho : g.once = true → s.ec.nTracks = 0) (ha : a.pos = [] ∧ a.interacts = true) (hb : b.pos ≠ [] ∧ b.interacts = true)
    (h : recTrack g m R s [a, b] = .ok (s', out)) (hk : Wanted s.flags .beamRho) :
    ∃ v, v = R.ofBeam (R.scatter (b.pos.map (fun q => (q.1 + g.xOff, q.2 + g.yOff)))) .beamRho ∧ s'.recs .beamRho = .arr [v, v] := by
  obtain ⟨e, blks, b1, -, -, b2, -⟩ := C128_recorded g m R hw hD s s' [a, b] out ho h
  rw [b2 _ hk]
  clear b2 h ho
  generalize ecReinit g m s.ec = e0 at b1
  generalize s.beam = bm at b1
  generalize hp : (e0, bm) = p0 at b1
  generalize hq : (e, s'.beam) = p1 at b1
  generalize hl : [a, b] = sls at b1
  clear hp hq
  cases b1 with
  | nil => cases hl
  | last slices sl s s1 s2 sl1 out blk blks h1 h2 =>
    have hl' : [a] ++ [b] = slices ++ [sl] := hl
    obtain ⟨e1, e2⟩ := List.append_inj' hl' rfl
    cases e2
    subst e1
    have r1 := interacting_single g m R _ _ _ _ _ _ h1 hb.2
    have r2 := h1.renewed hb.1 hb.2
    generalize hl2 : [a] = sls2 at h2
    cases h2 with
    | nil => cases hl2
    | last slices' sl' s' s1' s2' sl1' out' blk' blks' h1' h2' =>
      have hl2' : [] ++ [a] = slices' ++ [sl'] := hl2
      obtain ⟨e1, e2⟩ := List.append_inj' hl2' rfl
      cases e2
      subst e1
      have r3 := interacting_single g m R _ _ _ _ _ _ h1' ha.2
      have r4 := h1'.kept (Or.inl ha.1)
      have hbl : blks' = [] := by
        generalize hl3 : ([] : List (SliceIn K)) = sls3 at h2'
        cases h2' with
        | nil => rfl
        | last slices sl _ _ _ _ _ _ _ _ _ => simp at hl3
      subst hbl
      refine ⟨_, rfl, ?_⟩
      rw [r1, r3]
      simp [RecKind.isBeam, r2, r4]

/-- **C130** (passive). In the slice-by-slice mode, once the e-cloud has been re-initialised with the flags set, recording changes nothing of
the tracking of any sequence of slices. -/
theorem C130_passive (g : EcCfg K) (m : EcSim K C F) (R : RecSim K C F B V) (s : RecSt K C F B V) (slices : List (SliceIn K)) :
    (recSlices g m R slices (recReinit g m s)).map (fun r => (r.1.ec, r.2)) = trackSlices g m slices (ecReinit g m s.ec) :=
  (recSlices_passive g m R slices (recReinit g m s) (prepared_clear _ _)).1

/-- **C130** (needed). Without that re-initialisation a slice cannot be tracked: a quantity that is to be recorded and never was makes the
tracking fail. -/
theorem C130_needed [IsStrictOrderedRing K] (g : EcCfg K) (m : EcSim K C F) (R : RecSim K C F B V)
    (hD : ∀ D, g.Dt = some D → 0 < D) (s : RecSt K C F B V) (sl : SliceIn K) (k : RecKind) (hk : s.flags.on k = true)
    (hm : s.recs k = .missing) : ∀ r, recSlice g m R false s sl ≠ .ok r := by
  intro r h
  obtain ⟨s', sl'⟩ := r
  unfold recSlice at h
  obtain ⟨dts, h1, h2⟩ := bind_ok h
  obtain ⟨⟨s1, np⟩, h3, h4⟩ := bind_ok h2
  have hne : sliceCalls g sl.interacts s1.ec.cur s1.ec.tSim np true dts ≠ [] := fun q =>
    dtArray_ne_nil g.Dt hD _ _ _ h1 (List.length_eq_zero_iff.mp (by rw [← sliceCalls_length g sl.interacts s1.ec.cur s1.ec.tSim np true, q]; rfl))
  have key : ¬∃ r, recRestart g m s = .ok r := by
    rintro ⟨r, hr⟩
    unfold recRestart at hr
    obtain ⟨q, hq, -⟩ := bind_ok hr
    obtain ⟨l, hl, -⟩ := (recFinalize_ok _ _ _ hq k).1 hk
    rw [hm] at hl
    rcases hl with hl | hl <;> cases hl
  have hs : s1.flags = s.flags ∧ s1.recs = s.recs := by
    unfold recBunch at h3
    cases hi : sl.info.bind (fun i => i.parent.map (fun b => (b, i.iSlice))) with
    | none =>
      rw [hi] at h3
      cases h3
      exact ⟨rfl, rfl⟩
    | some p =>
      obtain ⟨b, i⟩ := p
      rw [hi] at h3
      dsimp only at h3
      by_cases h0 : b = 0 ∧ i = 0 ∧ g.sliceMode = false
      · rw [if_pos h0] at h3; cases h3
      · rw [if_neg h0] at h3
        by_cases hbi : b = 0 ∧ i = 0
        · rw [if_pos hbi] at h3
          obtain ⟨q, hq, -⟩ := bind_ok h3
          exact absurd ⟨q, hq⟩ key
        · rw [if_neg hbi] at h3
          simp only [bind, Except.bind] at h3
          by_cases hc : b > s.ec.cur
          · rw [if_pos hc] at h3
            cases h3
            exact ⟨rfl, rfl⟩
          · rw [if_neg hc] at h3
            cases h3
            exact ⟨rfl, rfl⟩
  obtain ⟨-, -, -, blk, -, -, -, c7, -⟩ := recCalls_ok g m R _ s1 s' sl sl' h4
  obtain ⟨q, q1, -⟩ := c7 k (by rw [hs.1]; exact hk) hne
  rw [hs.2, hm] at q1
  cases q1

/-- **C130** (train, partial: up to the next re-initialisation). The slices tracked after a re-initialisation, none of which is the first of a
train, are all in the records, in the order in which they were tracked, one entry per cloud step. -/
theorem C130_train_partial [IsStrictOrderedRing K] (g : EcCfg K) (m : EcSim K C F) (R : RecSim K C F B V)
    (hD : ∀ D, g.Dt = some D → 0 < D) (s s' : RecSt K C F B V) (slices out : List (SliceIn K))
    (hf : ∀ sl ∈ slices, ∀ i, sl.info = some i → ¬(i.parent = some 0 ∧ i.iSlice = 0))
    (h : recSlices g m R slices (recReinit g m s) = .ok (s', out)) :
    ∃ steps : List ℕ, steps.length = slices.length ∧ (∀ (i : ℕ) (sl : SliceIn K), slices[i]? = some sl →
        ∃ dts, dtArray g.Dt sl.interacts (g.dtSlice sl) = .ok dts ∧ steps[i]? = some dts.length) ∧
      ∀ k, Wanted s.flags k → ∃ l, s'.recs k = .list l ∧ l.length = steps.sum := by
  have gen : ∀ (l out : List (SliceIn K)) (t t' : RecSt K C F B V),
      (∀ sl ∈ l, ∀ i, sl.info = some i → ¬(i.parent = some 0 ∧ i.iSlice = 0)) →
      recSlices g m R l t = .ok (t', out) →
      ∃ steps : List ℕ, steps.length = l.length ∧ (∀ (i : ℕ) (sl : SliceIn K), l[i]? = some sl →
        ∃ dts, dtArray g.Dt sl.interacts (g.dtSlice sl) = .ok dts ∧ steps[i]? = some dts.length) ∧
      ∀ k q, t.flags.on k = true → t.recs k = .list q → ∃ l, t'.recs k = .list (q ++ l) ∧ l.length = steps.sum := by
    intro l
    induction l with
    | nil =>
      intro out t t' _ h
      cases h
      exact ⟨[], rfl, fun i sl q => by simp at q, fun k q _ hq => ⟨[], by simp [hq], rfl⟩⟩
    | cons sl l ih =>
      intro out t t' hf h
      unfold recSlices at h
      obtain ⟨⟨s1, sl1⟩, h1, h2⟩ := bind_ok h
      obtain ⟨⟨s2, l2⟩, h3, h4⟩ := bind_ok h2
      obtain ⟨e1, e2⟩ := Prod.mk.inj (Except.ok.inj h4)
      subst e1 e2
      unfold recSlice at h1
      obtain ⟨dts, d1, d2⟩ := bind_ok h1
      obtain ⟨⟨t1, np⟩, d3, d4⟩ := bind_ok d2
      have hs : t1.flags = t.flags ∧ t1.recs = t.recs := by
        unfold recBunch at d3
        cases hi : sl.info.bind (fun i => i.parent.map (fun b => (b, i.iSlice))) with
        | none =>
          rw [hi] at d3
          cases d3
          exact ⟨rfl, rfl⟩
        | some p =>
          obtain ⟨b, i⟩ := p
          rw [hi] at d3
          dsimp only at d3
          have hbi : ¬(b = 0 ∧ i = 0) := by
            rintro ⟨rfl, rfl⟩
            cases hinf : sl.info with
            | none => rw [hinf] at hi; cases hi
            | some inf =>
              rw [hinf] at hi
              cases hpar : inf.parent with
              | none => simp [hpar] at hi
              | some b =>
                simp only [Option.bind_some, hpar, Option.map_some, Option.some.injEq, Prod.mk.injEq] at hi
                exact hf sl (by simp) inf hinf ⟨by rw [hpar, hi.1], hi.2⟩
          rw [if_neg (fun q => hbi ⟨q.1, q.2.1⟩), if_neg hbi] at d3
          simp only [bind, Except.bind] at d3
          by_cases hc : b > t.ec.cur
          · rw [if_pos hc] at d3
            cases d3
            exact ⟨rfl, rfl⟩
          · rw [if_neg hc] at d3
            cases d3
            exact ⟨rfl, rfl⟩
      have hne : sliceCalls g sl.interacts t1.ec.cur t1.ec.tSim np true dts ≠ [] := fun q =>
        dtArray_ne_nil g.Dt hD _ _ _ d1 (List.length_eq_zero_iff.mp (by rw [← sliceCalls_length g sl.interacts t1.ec.cur t1.ec.tSim np true, q]; rfl))
      obtain ⟨-, c2, -, blk, c4, -, -, c7, -⟩ := recCalls_ok g m R _ t1 s1 sl sl1 d4
      obtain ⟨steps, i1, i2, i3⟩ := ih l2 s1 s2 (fun x hx => hf x (List.mem_cons_of_mem _ hx)) h3
      refine ⟨dts.length :: steps, by simp [i1], ?_, ?_⟩
      · intro i sl' hi
        cases i with
        | zero =>
          simp only [List.getElem?_cons_zero, Option.some.injEq] at hi
          subst hi
          exact ⟨dts, d1, rfl⟩
        | succ i => exact i2 i sl' hi
      · intro k q hk hq
        obtain ⟨q', q1, q2⟩ := c7 k (by rw [hs.1]; exact hk) hne
        rw [hs.2, hq] at q1
        cases q1
        obtain ⟨l3, j1, j2⟩ := i3 k _ (by rw [c2, hs.1]; exact hk) q2
        exact ⟨blk.map (fun v => v k) ++ l3, by rw [j1, List.append_assoc], by simp [j2, c4, sliceCalls_length]⟩
  obtain ⟨steps, i1, i2, i3⟩ := gen slices out _ s' hf h
  refine ⟨steps, i1, i2, fun k hk => ?_⟩
  obtain ⟨l, j1, j2⟩ := i3 k [] ((wanted_iff s.flags k).mpr hk) (by simp [recReinit, recClear, (wanted_iff s.flags k).mpr hk])
  exact ⟨l, by simpa using j1, j2⟩

/-- **C130** fails at the end of a train: `finalize_and_reinitialize`, which puts the records in order, also empties them, so that they are
lost before they can be read. -/
theorem C130_lost_violated (g : EcCfg K) (m : EcSim K C F) (s s' : RecSt K C F B V) (h : recRestart g m s = .ok s') (k : RecKind)
    (hk : Wanted s.flags k) : s'.recs k = .list [] := by
  unfold recRestart at h
  obtain ⟨r, h1, h2⟩ := bind_ok h
  have e := Except.ok.inj h2
  subst e
  simp [recReinit, recClear, (wanted_iff s.flags k).mpr hk]

/-- **C131** (partial: an e-cloud that has not tracked before). `track_once_and_replace_with_recorded_field_map` hands the frozen map the field
the cloud had in the slices of this bunch, and leaves the bunch as a tracking does. -/
theorem C131_once_partial [IsStrictOrderedRing K] (g : EcCfg K) (m : EcSim K C F) (R : RecSim K C F B V) (hw : g.sliceMode = false)
    (hD : ∀ D, g.Dt = some D → 0 < D) (s s' : RecSt K C F B V) (slices out : List (SliceIn K)) (a : RecAttr V)
    (h0 : s.ec.nTracks = 0) (h : onceReplace g m R s slices = .ok (a, s', out)) :
    trackBunch g m s.ec slices = .ok (s'.ec, out) ∧
    ∃ e blks, BunchRec { g with once := true } m R slices (ecReinit g m s.ec, s.beam) (e, s'.beam) out blks ∧
      a = .arr (blks.flatMap (fun b => (b.map (fun v => v .eleField)).reverse)) := by
  unfold onceReplace at h
  obtain ⟨⟨s1, l⟩, h1, h2⟩ := bind_ok h
  have hp := C128_passive { g with once := true } m R { s with flags := { s.flags with eleField := true } } slices
  rw [h1] at hp
  obtain ⟨e, blks, b1, -, -, b2, -⟩ := C128_recorded { g with once := true } m R hw hD { s with flags := { s.flags with eleField := true } } s1 slices l
    (fun _ => h0) h1
  have hr := b2 .eleField (Or.inl rfl)
  simp only [hr] at h2
  cases h2
  refine ⟨?_, e, blks, b1, rfl⟩
  have hp' : trackBunch { g with once := true } m s.ec slices = .ok (s1.ec, out) := hp.symm
  rw [← hp']
  unfold trackBunch
  have t1 : ¬(g.once && decide (s.ec.nTracks > 0)) = true := by rw [h0]; simp
  have t2 : ¬(({ g with once := true } : EcCfg K).once && decide (s.ec.nTracks > 0)) = true := by rw [h0]; simp
  rw [if_neg t1, if_neg t2]
  have e1 : ∀ (l : List (SliceIn K)) (e : EcSt K C F), trackRev g m l e = trackRev { g with once := true } m l e := by
    intro l
    induction l with
    | nil => intro e; rfl
    | cons sl l ih =>
      intro e
      have : ∀ (cs : List (SimCall K)) (e : EcSt K C F) (sl : SliceIn K),
          ecCalls g m cs e sl = ecCalls { g with once := true } m cs e sl := by
        intro cs
        induction cs with
        | nil => intro e sl; rfl
        | cons c cs ihc =>
          intro e sl
          unfold ecCalls
          exact congrArg _ (funext fun s1 => ihc _ _)
      have hsc : ∀ (i : Bool) (p : ℤ) (dts : List K) (t : K) (np fi : Bool),
          sliceCalls g i p t np fi dts = sliceCalls { g with once := true } i p t np fi dts := by
        intro i p dts
        induction dts with
        | nil => intro t np fi; rfl
        | cons d dts ihd => intro t np fi; unfold sliceCalls; rw [ihd]
      have ht : ∀ (f : Bool) (e : EcSt K C F) (sl : SliceIn K), trackSlice g m f e sl = trackSlice { g with once := true } m f e sl := by
        intro f e sl
        unfold trackSlice
        refine congrArg _ (funext fun dts => ?_)
        refine congrArg (Except.bind _) (funext fun r => ?_)
        obtain ⟨s1, np⟩ := r
        dsimp only
        rw [this, hsc]
      unfold trackRev
      rw [ht]
      exact congrArg _ (funext fun r => by obtain ⟨s1, sl1⟩ := r; dsimp only; rw [ih])
  rw [e1]
  rfl

/-- **C131** fails for an e-cloud that has already tracked a bunch: the bunch is not tracked, the call fails if the field has never been
recorded, and otherwise freezes the field recorded earlier, whatever the bunch. -/
theorem C131_second_violated (g : EcCfg K) (m : EcSim K C F) (R : RecSim K C F B V) (s : RecSt K C F B V) (slices : List (SliceIn K))
    (h0 : 0 < s.ec.nTracks) :
    (s.recs .eleField = .missing → onceReplace g m R s slices = .error .unbound) ∧
    (∀ l, s.recs .eleField = .arr l → ∃ s', onceReplace g m R s slices = .ok (.arr l, s', slices) ∧ s'.ec = s.ec) := by
  have ht : recTrack { g with once := true } m R { s with flags := { s.flags with eleField := true } } slices =
      .ok ({ s with flags := { s.flags with eleField := true } }, slices) := by
    unfold recTrack
    rw [if_pos (by simp [h0])]
  constructor
  · intro hm
    unfold onceReplace
    rw [ht]
    simp only [bind, Except.bind, hm]
  · intro l hl
    unfold onceReplace
    rw [ht]
    simp only [bind, Except.bind, hl]
    exact ⟨_, rfl, rfl⟩

/-- **C132** (construction). An e-cloud for PyHEADTAIL is constructed exactly for the two Boris trackers, with a single cloud, and without slicer
in the slice-by-slice mode. -/
theorem C132_built_iff (a : EcArgs K) :
    (∃ o : EcObj K V, mkEcloud a = .ok o) ↔
      (a.method = "Boris" ∨ a.method = "BorisMultipole") ∧ a.multiple = false ∧ (a.sliceMode = true → a.slicer = false) := by
  unfold mkEcloud
  by_cases h1 : a.method = "Boris" ∨ a.method = "BorisMultipole"
  · rw [if_pos h1]
    cases h2 : a.multiple with
    | true => simp
    | false =>
      cases h3 : a.sliceMode <;> cases h4 : a.slicer <;> simp [h1]
  · rw [if_neg h1]
    simp [h1]

/-- **C132** (settings). The e-cloud has the offsets, kicks and probes it was given, no offset and both kicks by default, records nothing but the
field at the probes, and tracks the first bunch in the whole-bunch mode without complaint about the records. -/
theorem C132_settings (a : EcArgs K) (o : EcObj K V) (h : mkEcloud a = .ok o) :
    (∀ v, a.xOff = some v → o.xOff = v) ∧ (a.xOff = none → o.xOff = 0) ∧
    (∀ v, a.yOff = some v → o.yOff = v) ∧ (a.yOff = none → o.yOff = 0) ∧
    (o.kickX = false ↔ a.kickX = some false) ∧ (o.kickY = false ↔ a.kickY = some false) ∧
    o.sliceMode = a.sliceMode ∧
    (∀ k, Wanted o.flags k ↔ k = .probes ∧ a.probes ≠ none) ∧ (∀ l, a.probes = some l → o.probes = l) := by
  unfold mkEcloud at h
  by_cases h1 : a.method = "Boris" ∨ a.method = "BorisMultipole"
  · rw [if_pos h1] at h
    cases h2 : a.multiple with
    | true => rw [h2] at h; cases h
    | false =>
      rw [h2, if_neg (by simp)] at h
      by_cases h3 : (a.sliceMode && a.slicer) = true
      · rw [if_pos h3] at h; cases h
      · rw [if_neg h3] at h
        cases h
        refine ⟨fun v hv => by simp [hv], fun hv => by simp [hv], fun v hv => by simp [hv], fun hv => by simp [hv], ?_, ?_, rfl, ?_,
          fun l hl => by simp [hl]⟩
        · cases a.kickX <;> simp
        · cases a.kickY <;> simp
        · intro k
          cases k <;> simp [Wanted, Option.isSome_iff_ne_none]
  · rw [if_neg h1] at h; cases h

/-- **C130** fails for probes: in the slice-by-slice mode an e-cloud with probes cannot track a slice before it is re-initialised, and the first slice of
a train, which re-initialises it, fails as well. -/
theorem C130_probes_violated [IsStrictOrderedRing K] (a : EcArgs K) (o : EcObj K V) (h : mkEcloud a = .ok o) (hp : a.probes ≠ none)
    (g : EcCfg K) (hD : ∀ D, g.Dt = some D → 0 < D) (m : EcSim K C F) (R : RecSim K C F B V) (e : EcSt K C F) (b : B) (sl : SliceIn K) :
    ∀ r, recSlice g m R false ⟨e, b, o.flags, o.recs⟩ sl ≠ .ok r := by
  have hon : o.flags.on .probes = true := ((C132_settings a o h).2.2.2.2.2.2.2.1 .probes).mpr ⟨rfl, hp⟩
  have hrec : o.recs .probes = .int := by
    unfold mkEcloud at h
    by_cases h1 : a.method = "Boris" ∨ a.method = "BorisMultipole"
    · rw [if_pos h1] at h
      cases h2 : a.multiple with
      | true => rw [h2] at h; cases h
      | false =>
        rw [h2, if_neg (by simp)] at h
        by_cases h3 : (a.sliceMode && a.slicer) = true
        · rw [if_pos h3] at h; cases h
        · rw [if_neg h3] at h
          cases h
          rfl
    · rw [if_neg h1] at h; cases h
  intro r hr
  obtain ⟨s', sl'⟩ := r
  unfold recSlice at hr
  obtain ⟨dts, h1, h2⟩ := bind_ok hr
  obtain ⟨⟨s1, np⟩, h3, h4⟩ := bind_ok h2
  have hne : sliceCalls g sl.interacts s1.ec.cur s1.ec.tSim np true dts ≠ [] := fun q =>
    dtArray_ne_nil g.Dt hD _ _ _ h1 (List.length_eq_zero_iff.mp (by rw [← sliceCalls_length g sl.interacts s1.ec.cur s1.ec.tSim np true, q]; rfl))
  have key : ¬∃ r, recRestart g m (⟨e, b, o.flags, o.recs⟩ : RecSt K C F B V) = .ok r := by
    rintro ⟨r, hr⟩
    unfold recRestart at hr
    obtain ⟨q, hq, -⟩ := bind_ok hr
    obtain ⟨l, hl, -⟩ := (recFinalize_ok _ _ _ hq .probes).1 hon
    rw [show (⟨e, b, o.flags, o.recs⟩ : RecSt K C F B V).recs .probes = .int from hrec] at hl
    rcases hl with hl | hl <;> cases hl
  have hs : s1.flags = o.flags ∧ s1.recs = o.recs := by
    unfold recBunch at h3
    cases hi : sl.info.bind (fun i => i.parent.map (fun b => (b, i.iSlice))) with
    | none =>
      rw [hi] at h3
      cases h3
      exact ⟨rfl, rfl⟩
    | some p =>
      obtain ⟨b', i⟩ := p
      rw [hi] at h3
      dsimp only at h3
      by_cases h0 : b' = 0 ∧ i = 0 ∧ g.sliceMode = false
      · rw [if_pos h0] at h3; cases h3
      · rw [if_neg h0] at h3
        by_cases hbi : b' = 0 ∧ i = 0
        · rw [if_pos hbi] at h3
          obtain ⟨q, hq, -⟩ := bind_ok h3
          exact absurd ⟨q, hq⟩ key
        · rw [if_neg hbi] at h3
          simp only [bind, Except.bind] at h3
          by_cases hc : b' > e.cur
          · rw [if_pos hc] at h3
            cases h3
            exact ⟨rfl, rfl⟩
          · rw [if_neg hc] at h3
            cases h3
            exact ⟨rfl, rfl⟩
  obtain ⟨-, -, -, blk, -, -, -, c7, -⟩ := recCalls_ok g m R _ s1 s' sl sl' h4
  obtain ⟨q, q1, -⟩ := c7 .probes (by rw [hs.1]; exact hon) hne
  rw [hs.2, hrec] at q1
  cases q1

/-- **C133** (line density). The line density handed to the cloud simulation times the length of the slice is the number of particles in the
slice, the beam position is their mean position in the frame of the cloud; slices that are empty or do not interact have none and exert no force. -/
theorem C133_line_density [IsStrictOrderedRing K] (g : EcCfg K) (ppm : K) (sl : SliceIn K) (hz : sl.dz ≠ 0) :
    (sl.interacts = true → (dummyBeam g ppm sl).lam * sl.dz = ppm * (sl.pos.length : K)) ∧
    (sl.interacts = false → (dummyBeam g ppm sl).lam = 0) ∧
    (sl.interacts = true → sl.pos ≠ [] → (dummyBeam g ppm sl).xPos * (sl.pos.length : K) = (sl.pos.map (fun q => q.1 + g.xOff)).sum ∧
      (dummyBeam g ppm sl).yPos * (sl.pos.length : K) = (sl.pos.map (fun q => q.2 + g.yOff)).sum) ∧
    (sl.interacts = false ∨ sl.pos = [] → ∀ gather xs, ∀ e ∈ dummyField (dummyBeam g ppm sl) gather xs, e = (0, 0)) := by
  refine ⟨fun hi => ?_, fun hi => ?_, fun hi hp => ?_, fun hi gather xs e he => ?_⟩
  · unfold dummyBeam
    cases hp : sl.pos with
    | nil => simp
    | cons a l =>
      rw [hi]
      simp only [List.isEmpty_cons, Bool.not_true, Bool.or_self, Bool.false_eq_true, if_false]
      field_simp
  · unfold dummyBeam
    rw [hi]
    simp
  · unfold dummyBeam
    have h1 : sl.pos.isEmpty = false := by simpa using hp
    rw [hi, h1]
    have h2 : (sl.pos.length : K) ≠ 0 := by
      have : sl.pos.length ≠ 0 := fun q => hp (List.length_eq_zero_iff.mp q)
      exact_mod_cast this
    have gen : ∀ (l : List (K × K)) (f : K × K → K) (o : K), (l.map (fun q => f q + o)).sum = (l.map f).sum + (l.length : K) * o := by
      intro l f o
      induction l with
      | nil => simp
      | cons a l ih =>
        simp only [List.map_cons, List.sum_cons, ih, List.length_cons]
        push_cast
        ring
    simp only [Bool.not_true, Bool.or_self, Bool.false_eq_true, if_false]
    unfold npMean
    rw [gen sl.pos (·.1), gen sl.pos (·.2)]
    simp only [List.length_map]
    constructor
    · field_simp
    · field_simp
  · have hf : (dummyBeam g ppm sl).field = false := by
      unfold dummyBeam
      rcases hi with hi | hi <;> simp [hi]
    unfold dummyField at he
    rw [hf, if_neg (by simp)] at he
    obtain ⟨x, -, hx⟩ := List.mem_map.mp he
    exact hx.symm

/-- **C133** (gas, partial: exact for `beta = 1`). The electrons produced on the residual gas by a slice that interacts are those of its particles -
number of gas atoms per volume times cross section times number of particles, per unit length - divided by `beta`. -/
theorem C133_gas_partial [IsStrictOrderedRing K] (g : EcCfg K) (kB pn sig tk ppm : K) (sl : SliceIn K) (hz : sl.dz ≠ 0)
    (hc : g.c ≠ 0) (hb : g.beta ≠ 0) (hi : sl.interacts = true) (n : K) (h : sliceIonised g kB pn sig tk ppm sl = .ok n) :
    n * g.beta = pn * (13332 / 100000000000) / (kB * tk) * (sig * (1 / 10 ^ 22)) * (ppm * (sl.pos.length : K)) := by
  unfold sliceIonised at h
  obtain ⟨dts, h1, h2⟩ := bind_ok h
  have hd : dts = [g.dtSlice sl] := by
    rw [hi] at h1
    unfold dtArray at h1
    cases hDt : g.Dt with
    | none => rw [hDt] at h1; exact (Except.ok.inj h1).symm
    | some D =>
      rw [hDt] at h1
      dsimp only at h1
      by_cases hd : g.dtSlice sl > D
      · rw [if_pos hd, if_pos rfl] at h1; cases h1
      · rw [if_neg hd] at h1; exact (Except.ok.inj h1).symm
  subst hd
  have e := Except.ok.inj h2
  rw [← e]
  have hl := (C133_line_density g ppm sl hz).1 hi
  simp only [List.map_cons, List.map_nil, List.sum_cons, List.sum_nil, add_zero]
  unfold gasIonRate EcCfg.dtSlice
  rw [← hl]
  field_simp

/-- **C133** fails for slower beams: with `beta` other than one a slice that produces electrons at all produces another number. -/
theorem C133_gas_violated [IsStrictOrderedRing K] (g : EcCfg K) (kB pn sig tk ppm : K) (sl : SliceIn K) (hz : sl.dz ≠ 0)
    (hc : g.c ≠ 0) (hb : g.beta ≠ 0) (hb1 : g.beta ≠ 1) (hi : sl.interacts = true) (n : K)
    (h : sliceIonised g kB pn sig tk ppm sl = .ok n) (hn : n ≠ 0) :
    n ≠ pn * (13332 / 100000000000) / (kB * tk) * (sig * (1 / 10 ^ 22)) * (ppm * (sl.pos.length : K)) := by
  intro q
  have := C133_gas_partial g kB pn sig tk ppm sl hz hc hb hi n h
  rw [← q] at this
  exact hb1 (mul_left_cancel₀ hn (by rw [this, mul_one]))

/-! ## Concrete cases -/

/-- the cloud of `ecToy` with every quantity its own value; the field of the beam is the number of its particles -/
def recToy : RecSim ℚ ℚ ℚ ℚ ℚ := ⟨fun l => (l.length : ℚ), fun c f k => if k = .eleField then f else c, fun b _ => b⟩

def recToyFlags : RecFlags := ⟨false, true, false, false, true, false, false, false, true, false, false, false⟩

def recToySt : RecSt ℚ ℚ ℚ ℚ ℚ := ⟨ecToySt, 7, recToyFlags, fun k => if k = .eleRho then .arr [5] else .missing⟩

/-- the hypotheses of C128, and what is recorded for a bunch of three slices; the last one is empty, the first one tracked: its beam is the one
in the solver before the bunch -/
example : ∃ r, recTrack { ecToyCfg with saveField := false } ecToy recToy recToySt ecToySlices = .ok r ∧
    (r.1.recs .eleField = .arr [39 / 8, 9 / 4, 1 / 2] ∧ r.1.recs .beamRho = .arr [2, 1, 7] ∧ r.1.recs .eleRho = .arr [5] ∧
      r.1.recs .mpVel = .missing ∧ r.1.flags.eleField = true) := by
  refine exists_okT ?_
  decide +kernel

example : ecToyCfg.sliceMode = false ∧ (∀ D, ecToyCfg.Dt = some D → 0 < D) ∧ (ecToyCfg.once = true → ecToySt.nTracks = 0) ∧
    (∀ sl ∈ ecToySlices, sl.interacts = true) ∧ Wanted recToyFlags .elePhi ∧ ¬Wanted recToyFlags .mpVel := by
  refine ⟨rfl, ?_, fun _ => rfl, by decide, Or.inr rfl, by simp [Wanted, recToyFlags]⟩
  intro D h
  cases h
  norm_num

/-- the beam of slices with particles -/
example : ∃ r, recTrack ecToyCfg ecToy recToy recToySt (ecToySlices.take 2) = .ok r ∧ r.1.recs .beamRho = .arr [2, 1] := by
  refine exists_okT ?_
  decide +kernel

/-- the beam of an empty slice: that of the slice tracked before it -/
example : ∃ r, recTrack ecToyCfg ecToy recToy recToySt [⟨1, none, [], []⟩, ⟨3, none, [(3, 0)], [(0, 0)]⟩] = .ok r ∧
    r.1.recs .beamRho = .arr [1, 1] := by
  refine exists_okT ?_
  decide +kernel

/-- slices of a train, after a re-initialisation: three steps of the second one -/
example : ∃ r, recSlices { ecToyCfg with sliceMode := true } ecToy recToy
    [⟨5, some ⟨none, some 0, 1⟩, [(1, 0)], [(0, 0)]⟩, ⟨25, some ⟨some false, some 0, 2⟩, [(1, 0)], [(0, 0)]⟩]
    (recReinit { ecToyCfg with sliceMode := true } ecToy recToySt) = .ok r ∧
    (r.1.recs .beamRho = .list [1, 1, 1, 1] ∧
      ((recRestart ecToyCfg ecToy r.1).toOption.map (fun s => s.recs .beamRho)) = some (.list [])) := by
  refine exists_okT ?_
  decide +kernel

/-- without the re-initialisation -/
example : recToySt.flags.on .beamRho = true ∧ recToySt.recs .beamRho = .missing := ⟨rfl, rfl⟩

/-- once, and once again -/
example : ∃ r, onceReplace { ecToyCfg with saveField := false } ecToy recToy recToySt ecToySlices = .ok r ∧
    (r.1 = .arr [39 / 8, 9 / 4, 1 / 2] ∧ r.2.1.ec.nTracks = 1 ∧
      ((onceReplace { ecToyCfg with saveField := false } ecToy recToy r.2.1 (ecToySlices.take 1)).toOption.map (fun q => q.1)) =
        some (.arr [39 / 8, 9 / 4, 1 / 2])) := by
  refine exists_okT ?_
  decide +kernel

/-- construction -/
example : ∃ o : EcObj ℚ ℚ, mkEcloud ⟨"BorisMultipole", false, true, false, some (1 / 2), none, none, some false, some [(0, 0), (1, 2)]⟩ = .ok o ∧
    (o.xOff = 1 / 2 ∧ o.yOff = 0 ∧ o.kickX = true ∧ o.kickY = false ∧ o.probes = [(0, 0), (1, 2)]) := by
  refine exists_okT ?_
  decide +kernel

/-- three particles of a slice of length 2, each standing for ten, and the electrons they produce at half the speed of light -/
example : dummyBeam { ecToyCfg with xOff := 1 } 10 ⟨2, none, [(1, 0), (2, 0), (3, 3)], []⟩ = ⟨15, 3, 1, true⟩ := by decide +kernel

example : ∃ n, sliceIonised { ecToyCfg with beta := 1 / 2, c := 3 } 1 1 (10 ^ 22) 1 10 ⟨2, none, [(1, 0), (2, 0), (3, 3)], []⟩ = .ok n ∧
    n = 60 * (13332 / 100000000000) := by
  refine exists_okT ?_
  decide +kernel

end PyECLOUD
