import Verif.Props.PyHT

/-! # C139: the kick that the particles of a bunch receive from the cloud -/

set_option linter.unusedSectionVars false

namespace PyECLOUD

variable {K : Type} [Field K] [LinearOrder K] [IsStrictOrderedRing K] [FloorRing K] {C F : Type}

/-- the change of a slope in the field component `e` over the length `len`: `q e len / (m γ (β c)²)`, or none -/
def SlopeChange (g : EcCfg K) (on : Bool) (e v v' : K) : Prop :=
  v' = v + if on then g.charge * e * g.len / (g.mass * g.gamma * (g.beta * g.c) ^ 2) else 0

/-- the same particles, with the same positions, the slopes changed by a field: horizontally and vertically by its horizontal and
vertical component at the position of the particle in the frame of the cloud, if that kick is enabled -/
structure KickedBy (g : EcCfg K) (field : K → K → K × K) (sl sl' : SliceIn K) : Prop where
  pos : sl'.pos = sl.pos
  dz : sl'.dz = sl.dz
  info : sl'.info = sl.info
  number : sl'.slope.length = sl.slope.length
  slope : ∀ (i : ℕ) (q v : K × K), sl.pos[i]? = some q → sl.slope[i]? = some v → ∃ v', sl'.slope[i]? = some v' ∧
    SlopeChange g g.kickX (field (q.1 + g.xOff) (q.2 + g.yOff)).1 v.1 v'.1 ∧
    SlopeChange g g.kickY (field (q.1 + g.xOff) (q.2 + g.yOff)).2 v.2 v'.2

theorem ecKick_kickedBy (g : EcCfg K) (m : EcSim K C F) (f : F) (sl : SliceIn K) (hl : sl.pos.length = sl.slope.length) :
    KickedBy g (m.gather f) sl (ecKick g m f sl) := by
  refine ⟨rfl, rfl, rfl, ?_, ?_⟩
  · simp [ecKick, hl]
  · intro i q v hq hv
    have e : g.mass * g.gamma * (g.beta * g.c) ^ 2 = g.mass * g.beta * g.beta * g.gamma * g.c * g.c := by ring
    refine ⟨_, by unfold ecKick; simp only [List.getElem?_zipWith, hq, hv]; rfl, ?_, ?_⟩
    · unfold SlopeChange
      rw [e]
      cases g.kickX <;> simp <;> ring
    · unfold SlopeChange
      rw [e]
      cases g.kickY <;> simp <;> ring

/-- **C139**: a slice that interacts is kicked once, by the field of the cloud at the end of the step. -/
theorem C139_kick (g : EcCfg K) (m : EcSim K C F) (force : Bool) (s s' : EcSt K C F) (sl sl' : SliceIn K)
    (hl : sl.pos.length = sl.slope.length) (hi : sl.interacts = true) (h : trackSlice g m force s sl = .ok (s', sl')) :
    KickedBy g (m.gather s'.field) sl sl' := by
  obtain ⟨s1, np, c, c2, -, -, -, h4, -, h6, -⟩ := trackSlice_interacting g m force s s' sl sl' hi h
  rw [h4, h6]
  exact ecKick_kickedBy g m _ sl hl

theorem ecCalls_idle (g : EcCfg K) (m : EcSim K C F) (l : List (SimCall K)) (s s' : EcSt K C F) (sl sl' : SliceIn K)
    (hi : sl.interacts = false) (h : ecCalls g m l s sl = .ok (s', sl')) : sl' = sl := by
  induction l generalizing s with
  | nil => cases h; rfl
  | cons call l ih =>
    unfold ecCalls at h
    obtain ⟨s1, -, h2⟩ := bind_ok h
    rw [hi] at h2
    exact ih _ h2

/-- **C139**: a slice that does not interact is left alone. -/
theorem C139_idle (g : EcCfg K) (m : EcSim K C F) (force : Bool) (s s' : EcSt K C F) (sl sl' : SliceIn K)
    (hi : sl.interacts = false) (h : trackSlice g m force s sl = .ok (s', sl')) : sl' = sl := by
  unfold trackSlice at h
  obtain ⟨dts, -, h2⟩ := bind_ok h
  obtain ⟨⟨s1, np⟩, -, h4⟩ := bind_ok h2
  exact ecCalls_idle g m _ _ _ sl sl' hi h4

/-- what tracking does to one slice of a bunch: some field kicks it, or it does not interact and is left alone -/
def SliceTracked (g : EcCfg K) (m : EcSim K C F) (sl sl' : SliceIn K) : Prop :=
  (sl.interacts = true ∧ ∃ f, KickedBy g (m.gather f) sl sl') ∨ (sl.interacts = false ∧ sl' = sl)

theorem trackSlice_tracked (g : EcCfg K) (m : EcSim K C F) (force : Bool) (s s' : EcSt K C F) (sl sl' : SliceIn K)
    (hl : sl.pos.length = sl.slope.length) (h : trackSlice g m force s sl = .ok (s', sl')) : SliceTracked g m sl sl' := by
  rcases hi : sl.interacts with _ | _
  · exact Or.inr ⟨hi, C139_idle g m force s s' sl sl' hi h⟩
  · exact Or.inl ⟨hi, _, C139_kick g m force s s' sl sl' hl hi h⟩

theorem trackRev_tracked (g : EcCfg K) (m : EcSim K C F) (l out : List (SliceIn K)) (s s' : EcSt K C F)
    (hl : ∀ sl ∈ l, sl.pos.length = sl.slope.length) (h : trackRev g m l s = .ok (s', out)) :
    List.Forall₂ (SliceTracked g m) l out := by
  induction l generalizing s s' out with
  | nil => cases h; exact .nil
  | cons sl l ih =>
    unfold trackRev at h
    obtain ⟨⟨s1, sl1⟩, h1, h2⟩ := bind_ok h
    obtain ⟨⟨s2, l2⟩, h3, h4⟩ := bind_ok h2
    obtain ⟨e1, e2⟩ := Prod.mk.inj (Except.ok.inj h4)
    subst e1 e2
    exact .cons (trackSlice_tracked g m _ _ _ _ _ (hl sl (by simp)) h1)
      (ih _ s1 _ (fun x hx => hl x (List.mem_cons_of_mem _ hx)) h3)

/-- **C139** for a bunch: the slices come back in their order, each one kicked in this way or left alone. -/
theorem C139_bunch (g : EcCfg K) (m : EcSim K C F) (s s' : EcSt K C F) (slices out : List (SliceIn K))
    (hl : ∀ sl ∈ slices, sl.pos.length = sl.slope.length) (hskip : ¬ (g.once = true ∧ 0 < s.nTracks))
    (h : trackBunch g m s slices = .ok (s', out)) : List.Forall₂ (SliceTracked g m) slices out := by
  unfold trackBunch at h
  rw [if_neg (by simpa using hskip)] at h
  obtain ⟨⟨s1, l⟩, h1, h2⟩ := bind_ok h
  obtain ⟨-, e2⟩ := Prod.mk.inj (Except.ok.inj h2)
  subst e2
  have := trackRev_tracked g m _ _ _ _ (fun sl hs => hl sl (by simpa using hs)) h1
  rw [← List.reverse_reverse slices]
  exact List.rel_reverse this

/-- **C139**, slice by slice: likewise. -/
theorem C139_slices (g : EcCfg K) (m : EcSim K C F) (l out : List (SliceIn K)) (s s' : EcSt K C F)
    (hl : ∀ sl ∈ l, sl.pos.length = sl.slope.length) (h : trackSlices g m l s = .ok (s', out)) :
    List.Forall₂ (SliceTracked g m) l out := by
  induction l generalizing s s' out with
  | nil => cases h; exact .nil
  | cons sl l ih =>
    unfold trackSlices at h
    obtain ⟨⟨s1, sl1⟩, h1, h2⟩ := bind_ok h
    obtain ⟨⟨s2, l2⟩, h3, h4⟩ := bind_ok h2
    obtain ⟨e1, e2⟩ := Prod.mk.inj (Except.ok.inj h4)
    subst e1 e2
    exact .cons (trackSlice_tracked g m _ _ _ _ _ (hl sl (by simp)) h1)
      (ih _ s1 _ (fun x hx => hl x (List.mem_cons_of_mem _ hx)) h3)

/-- **C139**: a single-kick e-cloud that has tracked a bunch already leaves every further bunch, and itself, alone. -/
theorem C139_once (g : EcCfg K) (m : EcSim K C F) (s : EcSt K C F) (slices : List (SliceIn K)) (ho : g.once = true)
    (hn : 0 < s.nTracks) : trackBunch g m s slices = .ok (s, slices) := by
  unfold trackBunch
  rw [if_pos (by simp [ho, hn])]

/-- with the horizontal kick disabled the slopes change vertically only -/
example : ∃ r, trackBunch { ecToyCfg with kickX := false } ecToy ecToySt ecToySlices = .ok r ∧
    r.2.map (fun sl => sl.slope) = [[(0, -39 / 4), (0, -39 / 4)], [(0, -9 / 2)], []] := by
  refine exists_okT ?_
  decide +kernel

example : ∀ sl ∈ ecToySlices, sl.pos.length = sl.slope.length := by decide

end PyECLOUD
