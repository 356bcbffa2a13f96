import Verif.Model.EcRecord
import Verif.Props.PyHT

/-!
# Helper lemmas: the recorded quantities of an e-cloud in PyHEADTAIL
-/

namespace PyECLOUD

set_option linter.unusedSectionVars false

section Recorder

variable {V : Type}

theorem mem_recOrder (k : RecKind) : k ∈ recOrder := by cases k <;> decide

theorem recEach_ok (f : RecFlags) (act : RecKind → RecAttr V → Except PyErr (RecAttr V)) (l : List RecKind) (hl : l.Nodup)
    (r r' : Recs V) (h : recEach f act l r = .ok r') (k : RecKind) :
    (k ∈ l ∧ f.on k = true → act k (r k) = .ok (r' k)) ∧ (¬(k ∈ l ∧ f.on k = true) → r' k = r k) := by
  induction l generalizing r with
  | nil =>
    cases h
    exact ⟨fun q => absurd q.1 (by simp), fun _ => rfl⟩
  | cons a l ih =>
    unfold recEach at h
    have hn := List.nodup_cons.mp hl
    by_cases ha : f.on a = true
    · rw [if_pos ha] at h
      obtain ⟨v, h1, h2⟩ := bind_ok h
      have := ih hn.2 _ h2
      by_cases hk : k = a
      · subst hk
        have e := this.2 (fun q => hn.1 q.1)
        rw [Function.update_self] at e
        refine ⟨fun _ => by rw [e]; exact h1, fun q => absurd ⟨by simp, ha⟩ q⟩
      · rw [Function.update_of_ne hk] at this
        refine ⟨fun q => this.1 ⟨by simpa [hk] using q.1, q.2⟩, fun q => this.2 (fun q' => q ⟨List.mem_cons_of_mem _ q'.1, q'.2⟩)⟩
    · rw [if_neg ha] at h
      have := ih hn.2 _ h
      refine ⟨fun q => this.1 ⟨?_, q.2⟩, fun q => this.2 (fun q' => q ⟨List.mem_cons_of_mem _ q'.1, q'.2⟩)⟩
      rcases List.mem_cons.mp q.1 with e | e
      · exact absurd (e ▸ q.2) ha
      · exact e

theorem recEach_exists (f : RecFlags) (act : RecKind → RecAttr V → Except PyErr (RecAttr V)) (l : List RecKind) (hl : l.Nodup)
    (r : Recs V) (h : ∀ k ∈ l, f.on k = true → ∃ a, act k (r k) = .ok a) : ∃ r', recEach f act l r = .ok r' := by
  induction l generalizing r with
  | nil => exact ⟨r, rfl⟩
  | cons a l ih =>
    have hn := List.nodup_cons.mp hl
    unfold recEach
    by_cases ha : f.on a = true
    · rw [if_pos ha]
      obtain ⟨v, hv⟩ := h a (by simp) ha
      rw [hv]
      refine ih hn.2 _ (fun k hk ho => ?_)
      rw [Function.update_of_ne (fun e : k = a => hn.1 (e ▸ hk))]
      exact h k (List.mem_cons_of_mem _ hk) ho
    · rw [if_neg ha]
      exact ih hn.2 _ (fun k hk ho => h k (List.mem_cons_of_mem _ hk) ho)

/-- every recorded quantity has a list to append to -/
def Prepared (f : RecFlags) (r : Recs V) : Prop := ∀ k, f.on k = true → ∃ l, r k = .list l

theorem recStep_ok (f : RecFlags) (snap : RecKind → V) (r r' : Recs V) (h : recStep f snap r = .ok r') (k : RecKind) :
    (f.on k = true → ∃ l, r k = .list l ∧ r' k = .list (l ++ [snap k])) ∧ (f.on k = false → r' k = r k) := by
  have := recEach_ok f _ recOrder (by decide) r r' h k
  refine ⟨fun ho => ?_, fun ho => this.2 (by simp [ho])⟩
  have h1 := this.1 ⟨mem_recOrder k, ho⟩
  cases hr : r k with
  | list l => rw [hr] at h1; exact ⟨l, rfl, (Except.ok.inj h1).symm⟩
  | missing => rw [hr] at h1; cases h1
  | int => rw [hr] at h1; cases h1
  | arr l => rw [hr] at h1; cases h1

theorem recStep_exists (f : RecFlags) (snap : RecKind → V) (r : Recs V) (h : Prepared f r) :
    ∃ r', recStep f snap r = .ok r' ∧ Prepared f r' := by
  obtain ⟨r', hr⟩ := recEach_exists f (fun k a => a.append (snap k)) recOrder (by decide) r (fun k _ ho => by
    obtain ⟨l, hl⟩ := h k ho
    exact ⟨.list (l ++ [snap k]), by rw [hl]; rfl⟩)
  refine ⟨r', hr, fun k ho => ?_⟩
  obtain ⟨l, -, h2⟩ := (recStep_ok f snap r r' hr k).1 ho
  exact ⟨_, h2⟩

theorem recFinalize_ok (f : RecFlags) (r r' : Recs V) (h : recFinalize f r = .ok r') (k : RecKind) :
    (f.on k = true → ∃ l, (r k = .list l ∨ r k = .arr l) ∧ r' k = .arr l.reverse) ∧ (f.on k = false → r' k = r k) := by
  have := recEach_ok f _ recOrder (by decide) r r' h k
  refine ⟨fun ho => ?_, fun ho => this.2 (by simp [ho])⟩
  have h1 := this.1 ⟨mem_recOrder k, ho⟩
  cases hr : r k with
  | list l => rw [hr] at h1; exact ⟨l, Or.inl rfl, (Except.ok.inj h1).symm⟩
  | missing => rw [hr] at h1; cases h1
  | int => rw [hr] at h1; cases h1
  | arr l => rw [hr] at h1; exact ⟨l, Or.inr rfl, (Except.ok.inj h1).symm⟩

theorem recFinalize_exists (f : RecFlags) (r : Recs V) (h : Prepared f r) : ∃ r', recFinalize f r = .ok r' :=
  recEach_exists f (fun _ a => a.finalized) recOrder (by decide) r (fun k _ ho => by
    obtain ⟨l, hl⟩ := h k ho
    exact ⟨.arr l.reverse, by rw [hl]; rfl⟩)

theorem prepared_clear (f : RecFlags) (r : Recs V) : Prepared f (recClear f r) := fun k ho => ⟨[], by unfold recClear; rw [if_pos ho]⟩

theorem spread_spread (f : RecFlags) : f.spread.spread = f.spread := by
  unfold RecFlags.spread
  simp

end Recorder

variable {K : Type} [Field K] [LinearOrder K] [FloorRing K] {C F B V : Type}

theorem kick_interacts (g : EcCfg K) (m : EcSim K C F) (f : F) (sl : SliceIn K) : (ecKick g m f sl).interacts = sl.interacts := rfl

theorem kick_beamOf (g : EcCfg K) (m : EcSim K C F) (f : F) (sl : SliceIn K) : beamOf g (ecKick g m f sl) = beamOf g sl := rfl

theorem kick_beamState (g : EcCfg K) (m : EcSim K C F) (R : RecSim K C F B V) (f : F) (b : B) (sl : SliceIn K) :
    beamState g R b (if sl.interacts then ecKick g m f sl else sl) = beamState g R b sl := by
  by_cases h : sl.interacts = true
  · rw [if_pos h]; rfl
  · rw [if_neg h]

theorem beamState_idem (g : EcCfg K) (R : RecSim K C F B V) (b : B) (sl : SliceIn K) :
    beamState g R (beamState g R b sl) sl = beamState g R b sl := by
  unfold beamState
  by_cases h : (sl.pos.isEmpty || !sl.interacts) = true
  · simp only [if_pos h]
  · simp only [if_neg h]

/-- the steps of a slice: what is recorded, and the cloud without the records -/
theorem recCalls_ok (g : EcCfg K) (m : EcSim K C F) (R : RecSim K C F B V) (l : List (SimCall K)) (s s' : RecSt K C F B V)
    (sl sl' : SliceIn K) (h : recCalls g m R l s sl = .ok (s', sl')) :
    ecCalls g m l s.ec sl = .ok (s'.ec, sl') ∧ s'.flags = s.flags ∧
    (l ≠ [] → s'.beam = beamState g R s.beam sl) ∧
    ∃ blk : List (RecKind → V), blk.length = l.length ∧
      (l ≠ [] → blk.getLast? = some (R.snap s'.ec s'.beam)) ∧
      (∀ sn ∈ blk, ∀ k, k.isBeam = true → sn k = R.ofBeam (beamState g R s.beam sl) k) ∧
      (∀ k, s.flags.on k = true → l ≠ [] → ∃ q, s.recs k = .list q ∧ s'.recs k = .list (q ++ blk.map (fun sn => sn k))) ∧
      (∀ k, s.flags.on k = false ∨ l = [] → s'.recs k = s.recs k) := by
  induction l generalizing s sl with
  | nil =>
    cases h
    exact ⟨rfl, rfl, fun q => absurd rfl q, [], rfl, fun q => absurd rfl q, fun _ q => absurd q (by simp),
      fun _ _ q => absurd rfl q, fun _ _ => rfl⟩
  | cons call l ih =>
    unfold recCalls at h
    obtain ⟨e1, h1, h2⟩ := bind_ok h
    obtain ⟨r, h3, h4⟩ := bind_ok h2
    obtain ⟨i1, i2, i3, blk, i4, i5, i6, i7, i8⟩ := ih _ _ h4
    dsimp only at i1 i2 i3 i5 i6 i7 i8
    rw [kick_beamState, beamState_idem] at i3 i6
    have hb : s'.beam = beamState g R s.beam sl := by
      by_cases hl : l = []
      · subst hl
        unfold recCalls at h4
        rw [← (Prod.mk.inj (Except.ok.inj h4)).1]
      · exact i3 hl
    refine ⟨?_, i2, fun _ => hb, R.snap e1 (beamState g R s.beam sl) :: blk, by simp [i4], ?_, ?_, ?_, ?_⟩
    · unfold ecCalls
      rw [h1]
      exact i1
    · intro _
      by_cases hl : l = []
      · subst hl
        have : blk = [] := List.length_eq_zero_iff.mp i4
        subst this
        unfold recCalls at h4
        rw [← (Prod.mk.inj (Except.ok.inj h4)).1]
        rfl
      · rw [List.getLast?_cons, i5 hl]; rfl
    · intro sn hsn k hk
      rcases List.mem_cons.mp hsn with e | e
      · subst e
        unfold RecSim.snap
        rw [if_pos hk]
      · exact i6 sn e k hk
    · intro k ho _
      obtain ⟨q, q1, q2⟩ := (recStep_ok _ _ _ _ h3 k).1 ho
      refine ⟨q, q1, ?_⟩
      by_cases hl : l = []
      · have hb : blk = [] := by
          subst hl
          exact List.length_eq_zero_iff.mp i4
        rw [i8 k (Or.inr hl), q2, hb]; rfl
      · obtain ⟨q', q3, q4⟩ := i7 k ho hl
        rw [q2] at q3
        rw [q4, ← RecAttr.list.inj q3, List.append_assoc]; rfl
    · intro k ho
      rcases ho with ho | ho
      · rw [i8 k (Or.inl ho)]
        exact (recStep_ok _ _ _ _ h3 k).2 ho
      · cases ho

/-- recording does not change or fail the steps -/
theorem recCalls_passive (g : EcCfg K) (m : EcSim K C F) (R : RecSim K C F B V) (l : List (SimCall K)) (s : RecSt K C F B V)
    (sl : SliceIn K) (hp : Prepared s.flags s.recs) :
    (recCalls g m R l s sl).map (fun r => (r.1.ec, r.2)) = ecCalls g m l s.ec sl ∧
    ∀ r, recCalls g m R l s sl = .ok r → Prepared r.1.flags r.1.recs := by
  induction l generalizing s sl with
  | nil =>
    refine ⟨rfl, fun r h => ?_⟩
    cases h
    exact hp
  | cons call l ih =>
    unfold recCalls ecCalls
    cases h1 : ecSimStep m call (beamOf g sl) s.ec with
    | error e =>
      refine ⟨rfl, fun r h => ?_⟩
      cases h
    | ok e1 =>
      obtain ⟨r, h2, h3⟩ := recStep_exists s.flags (R.snap e1 (beamState g R s.beam sl)) s.recs hp
      have := ih { s with
        ec := { e1 with
          saved := if g.saveField then e1.saved ++ [e1.field] else e1.saved
          tSim := e1.tSim + call.dt }
        beam := beamState g R s.beam sl
        recs := r } (if sl.interacts then ecKick g m e1.field sl else sl) h3
      simp only [bind, Except.bind, h2]
      exact this

theorem recBunch_passive (g : EcCfg K) (m : EcSim K C F) (force : Bool) (s : RecSt K C F B V) (info : Option SliceInfo)
    (hp : Prepared s.flags s.recs) :
    (recBunch g m force s info).map (fun r => (r.1.ec, r.2)) = ecBunch g m force s.ec info ∧
    ∀ r, recBunch g m force s info = .ok r → Prepared r.1.flags r.1.recs := by
  unfold recBunch ecBunch
  cases info.bind (fun i => i.parent.map (fun b => (b, i.iSlice))) with
  | none =>
    refine ⟨rfl, fun r h => ?_⟩
    cases h
    exact hp
  | some p =>
    obtain ⟨b, i⟩ := p
    dsimp only
    by_cases h0 : b = 0 ∧ i = 0 ∧ g.sliceMode = false
    · rw [if_pos h0, if_pos h0]
      refine ⟨rfl, fun r h => ?_⟩
      cases h
    · rw [if_neg h0, if_neg h0]
      by_cases hbi : b = 0 ∧ i = 0
      · rw [if_pos hbi, if_pos hbi]
        obtain ⟨r', hr⟩ := recFinalize_exists s.flags s.recs hp
        unfold recRestart
        simp only [bind, Except.bind, hr]
        by_cases hc : b > (recReinit g m { s with ec := ecFinalize g s.ec, recs := r' }).ec.cur
        · have hc' : b > (ecReinit g m (ecFinalize g s.ec)).cur := hc
          rw [if_pos hc, if_pos hc']
          refine ⟨rfl, fun r h => ?_⟩
          cases h
          exact prepared_clear _ _
        · have hc' : ¬b > (ecReinit g m (ecFinalize g s.ec)).cur := hc
          rw [if_neg hc, if_neg hc']
          refine ⟨rfl, fun r h => ?_⟩
          cases h
          exact prepared_clear _ _
      · rw [if_neg hbi, if_neg hbi]
        simp only [bind, Except.bind]
        by_cases hc : b > s.ec.cur
        · rw [if_pos hc, if_pos hc]
          refine ⟨rfl, fun r h => ?_⟩
          cases h
          exact hp
        · rw [if_neg hc, if_neg hc]
          refine ⟨rfl, fun r h => ?_⟩
          cases h
          exact hp

theorem recSlice_passive (g : EcCfg K) (m : EcSim K C F) (R : RecSim K C F B V) (force : Bool) (s : RecSt K C F B V)
    (sl : SliceIn K) (hp : Prepared s.flags s.recs) :
    (recSlice g m R force s sl).map (fun r => (r.1.ec, r.2)) = trackSlice g m force s.ec sl ∧
    ∀ r, recSlice g m R force s sl = .ok r → Prepared r.1.flags r.1.recs := by
  unfold recSlice trackSlice
  cases h1 : dtArray g.Dt sl.interacts (g.dtSlice sl) with
  | error e =>
    refine ⟨rfl, fun r h => ?_⟩
    cases h
  | ok dts =>
    obtain ⟨b1, b2⟩ := recBunch_passive g m force s sl.info hp
    simp only [bind, Except.bind]
    rw [← b1]
    cases h2 : recBunch g m force s sl.info with
    | error e =>
      refine ⟨rfl, fun r h => ?_⟩
      cases h
    | ok r1 =>
      obtain ⟨s1, np⟩ := r1
      exact recCalls_passive g m R _ s1 sl (b2 _ h2)

theorem recSlices_passive (g : EcCfg K) (m : EcSim K C F) (R : RecSim K C F B V) (l : List (SliceIn K)) (s : RecSt K C F B V)
    (hp : Prepared s.flags s.recs) :
    (recSlices g m R l s).map (fun r => (r.1.ec, r.2)) = trackSlices g m l s.ec ∧
    ∀ r, recSlices g m R l s = .ok r → Prepared r.1.flags r.1.recs := by
  induction l generalizing s with
  | nil =>
    refine ⟨rfl, fun r h => ?_⟩
    cases h
    exact hp
  | cons sl l ih =>
    unfold recSlices trackSlices
    obtain ⟨b1, b2⟩ := recSlice_passive g m R false s sl hp
    simp only [bind, Except.bind]
    rw [← b1]
    cases h2 : recSlice g m R false s sl with
    | error e =>
      refine ⟨rfl, fun r h => ?_⟩
      cases h
    | ok r1 =>
      obtain ⟨s1, sl1⟩ := r1
      obtain ⟨c1, c2⟩ := ih s1 (b2 _ h2)
      simp only [Except.map]
      rw [← c1]
      cases h3 : recSlices g m R l s1 with
      | error e =>
        refine ⟨rfl, fun r h => ?_⟩
        cases h
      | ok r2 =>
        refine ⟨rfl, fun r h => ?_⟩
        cases h
        exact c2 r2 h3

theorem recRev_passive (g : EcCfg K) (m : EcSim K C F) (R : RecSim K C F B V) (l : List (SliceIn K)) (s : RecSt K C F B V)
    (hp : Prepared s.flags s.recs) :
    (recRev g m R l s).map (fun r => (r.1.ec, r.2)) = trackRev g m l s.ec ∧
    ∀ r, recRev g m R l s = .ok r → Prepared r.1.flags r.1.recs := by
  induction l generalizing s with
  | nil =>
    refine ⟨rfl, fun r h => ?_⟩
    cases h
    exact hp
  | cons sl l ih =>
    unfold recRev trackRev
    obtain ⟨b1, b2⟩ := recSlice_passive g m R l.isEmpty s sl hp
    simp only [bind, Except.bind]
    rw [← b1]
    cases h2 : recSlice g m R l.isEmpty s sl with
    | error e =>
      refine ⟨rfl, fun r h => ?_⟩
      cases h
    | ok r1 =>
      obtain ⟨s1, sl1⟩ := r1
      obtain ⟨c1, c2⟩ := ih s1 (b2 _ h2)
      simp only [Except.map]
      rw [← c1]
      cases h3 : recRev g m R l s1 with
      | error e =>
        refine ⟨rfl, fun r h => ?_⟩
        cases h
      | ok r2 =>
        refine ⟨rfl, fun r h => ?_⟩
        cases h
        exact c2 r2 h3

end PyECLOUD
