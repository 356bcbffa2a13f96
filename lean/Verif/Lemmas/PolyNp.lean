import Verif.Model.PolyNp
import Verif.Lemmas.Geometry

/-!
# Lemmas on the polygonal chamber without compiled code
-/

set_option linter.unusedSectionVars false

namespace PyECLOUD

variable {K : Type} [Field K] [LinearOrder K] [IsStrictOrderedRing K]

/-- Updating a mask in place where it is set. -/
theorem maskPut_self {α : Type} (l : List α) (f g : α → Bool) :
    maskPut (l.map f) (l.map f) ((maskSel l (l.map f)).map g) = l.map (fun a => f a && g a) := by
  induction l with
  | nil => rfl
  | cons a l ih =>
    cases hf : f a with
    | true => simp [maskSel, maskPut, hf, ih]
    | false => simp [maskSel, maskPut, hf, ih]

theorem npEdgePass_foldl (chk : List (K × K)) (es : List (Edge K)) (f : K × K → Bool) :
    es.foldl (npEdgePass chk) (chk.map f) = chk.map (fun p => f p && es.all (fun e => decide (0 < e.side p.1 p.2))) := by
  induction es generalizing f with
  | nil => simp
  | cons e es ih =>
    rw [List.foldl_cons]
    have : npEdgePass chk (chk.map f) e = chk.map (fun p => f p && decide (0 < e.side p.1 p.2)) := by
      unfold npEdgePass
      exact maskPut_self chk f (fun p => decide (0 < e.side p.1 p.2))
    rw [this, ih]
    simp [Bool.and_assoc]

theorem npOutside_eq (P : Poly K) (pts : List (K × K)) :
    npOutside P pts = pts.map (fun p => outsideConvex P.edges P.cx P.cy p.1 p.2) := by
  unfold npOutside
  simp only []
  rw [npEdgePass_foldl, List.map_map]
  have := maskPut_self pts (fun p => !inEllipse P.cx P.cy p.1 p.2)
    (fun p => !(P.edges.all (fun e => decide (0 < e.side p.1 p.2))))
  simp only [Bool.true_and]
  rw [show ((fun b => !b) ∘ fun p : K × K => P.edges.all (fun e => decide (0 < e.side p.1 p.2)))
    = (fun p => !(P.edges.all (fun e => decide (0 < e.side p.1 p.2)))) from rfl, this]
  apply List.map_congr_left
  intro p _
  simp only [outsideConvex, Bool.not_or]

theorem npOut1_eq (P : Poly K) (x y : K) : P.npOut1 x y = outsideConvex P.edges P.cx P.cy x y := by
  unfold Poly.npOut1
  rw [npOutside_eq]
  rfl

/-- What the search returns: the smallest line crossing, and for the edge the last one that contains it if there is
any. -/
theorem npLoop_spec (xi yi xo yo : K) (l : List (Edge K)) (ii : ℕ) (s : NpSearch K) (h0 : 0 ≤ s.t) :
    (0 ≤ (npLoop xi yi xo yo l ii s).t ∧ (npLoop xi yi xo yo l ii s).t ≤ s.t) ∧
    (∀ e ∈ l, ∀ u, e.lineT xi yi xo yo = some u → 0 ≤ u → (npLoop xi yi xo yo l ii s).t ≤ u) ∧
    ((npLoop xi yi xo yo l ii s).t = s.t ∧ (npLoop xi yi xo yo l ii s).found = s.found ∨
      (∃ e ∈ l, e.lineT xi yi xo yo = some (npLoop xi yi xo yo l ii s).t) ∧
        (npLoop xi yi xo yo l ii s).found = true) ∧
    ((∃ k e, l[k]? = some e ∧ e.lineT xi yi xo yo = some (npLoop xi yi xo yo l ii s).t ∧
        e.borderOk xi yi xo yo = true ∧ (npLoop xi yi xo yo l ii s).i = ((ii + k : ℕ) : ℤ) ∧
        ∀ k' e', l[k']? = some e' → e'.lineT xi yi xo yo = some (npLoop xi yi xo yo l ii s).t →
          e'.borderOk xi yi xo yo = true → k' ≤ k) ∨
      (∀ e ∈ l, e.lineT xi yi xo yo = some (npLoop xi yi xo yo l ii s).t → e.borderOk xi yi xo yo = false) ∧
        ((npLoop xi yi xo yo l ii s).t = s.t → (npLoop xi yi xo yo l ii s).i = s.i)) := by
  induction l generalizing ii s with
  | nil => simp [npLoop, h0]
  | cons e l ih =>
    have hs : npLoop xi yi xo yo (e :: l) ii s = npLoop xi yi xo yo l (ii + 1) (npStep xi yi xo yo s ii e) := rfl
    rw [hs]
    obtain ⟨s1, hs1⟩ : ∃ s1, s1 = npStep xi yi xo yo s ii e := ⟨_, rfl⟩
    rw [← hs1]
    have hstep : (0 ≤ s1.t ∧ s1.t ≤ s.t) ∧ (∀ u, e.lineT xi yi xo yo = some u → 0 ≤ u → s1.t ≤ u) ∧
        (s1.t = s.t ∧ s1.found = s.found ∨ e.lineT xi yi xo yo = some s1.t ∧ s1.found = true) ∧
        (e.lineT xi yi xo yo = some s1.t → e.borderOk xi yi xo yo = true → s1.i = (ii : ℤ)) ∧
        (s1.t = s.t → ¬ (e.lineT xi yi xo yo = some s1.t ∧ e.borderOk xi yi xo yo = true) → s1.i = s.i) := by
      rw [hs1]
      unfold npStep
      cases hT : e.lineT xi yi xo yo with
      | none => exact ⟨⟨h0, le_refl _⟩, fun u h => (by cases h), Or.inl ⟨rfl, rfl⟩, fun h => (by cases h),
          fun _ _ => rfl⟩
      | some tc =>
        simp only
        by_cases hlt : 0 ≤ tc ∧ tc < s.t
        · rw [if_pos hlt]
          by_cases hb : e.borderOk xi yi xo yo = true
          · rw [if_pos ⟨rfl, hb⟩]
            exact ⟨⟨hlt.1, hlt.2.le⟩, fun u h _ => (Option.some.inj h).le, Or.inr ⟨rfl, rfl⟩, fun _ _ => rfl,
              fun h _ => absurd h hlt.2.ne⟩
          · rw [if_neg (fun h => hb h.2)]
            exact ⟨⟨hlt.1, hlt.2.le⟩, fun u h _ => (Option.some.inj h).le, Or.inr ⟨rfl, rfl⟩, fun _ _ => rfl,
              fun h _ => absurd h hlt.2.ne⟩
        · rw [if_neg hlt]
          have hge : ∀ u, some tc = some u → 0 ≤ u → s.t ≤ u := by
            intro u h h0
            obtain rfl := Option.some.inj h
            by_contra hc
            exact hlt ⟨h0, not_le.1 hc⟩
          by_cases hb : tc = s.t ∧ e.borderOk xi yi xo yo = true
          · rw [if_pos hb]
            exact ⟨⟨h0, le_refl _⟩, hge, Or.inl ⟨rfl, rfl⟩, fun _ _ => rfl,
              fun _ h => absurd ⟨congrArg some hb.1, hb.2⟩ h⟩
          · rw [if_neg hb]
            exact ⟨⟨h0, le_refl _⟩, hge, Or.inl ⟨rfl, rfl⟩, fun h hb' => absurd ⟨Option.some.inj h, hb'⟩ hb, fun _ _ => rfl⟩
    obtain ⟨⟨g0, g1⟩, g2, g3, g4, g5⟩ := hstep
    obtain ⟨⟨h0', h1⟩, h2, h3, h4⟩ := ih (ii + 1) s1 g0
    obtain ⟨r, hr⟩ : ∃ r, r = npLoop xi yi xo yo l (ii + 1) s1 := ⟨_, rfl⟩
    rw [← hr] at h0' h1 h2 h3 h4 ⊢
    refine ⟨⟨h0', h1.trans g1⟩, ?_, ?_, ?_⟩
    · intro e' he' u hu h0
      rcases List.mem_cons.1 he' with rfl | he'
      · exact h1.trans (g2 u hu h0)
      · exact h2 e' he' u hu h0
    · rcases h3 with ⟨h3, h3'⟩ | ⟨⟨e', he', h3⟩, h3'⟩
      · rcases g3 with ⟨g3, g3'⟩ | ⟨g3, g3'⟩
        · exact Or.inl ⟨h3.trans g3, h3'.trans g3'⟩
        · exact Or.inr ⟨⟨e, List.mem_cons_self, by rw [h3]; exact g3⟩, h3'.trans g3'⟩
      · exact Or.inr ⟨⟨e', List.mem_cons_of_mem _ he', h3⟩, h3'⟩
    · rcases h4 with ⟨k, e', hk, ht, hb, hi, hlast⟩ | hno
      · refine Or.inl ⟨k + 1, e', by simpa using hk, ht, hb, ?_, ?_⟩
        · rw [hi]; congr 1; omega
        · intro k' e'' hk' ht' hb'
          cases k' with
          | zero => omega
          | succ k' =>
            have := hlast k' e'' (by simpa using hk') ht' hb'
            omega
      · by_cases he : e.lineT xi yi xo yo = some r.t ∧ e.borderOk xi yi xo yo = true
        · left
          have hkeep : r.t = s1.t := le_antisymm h1 (g2 _ he.1 h0')
          refine ⟨0, e, rfl, he.1, he.2, ?_, ?_⟩
          · rw [hno.2 hkeep]
            exact g4 (by rw [← hkeep]; exact he.1) he.2
          · intro k' e'' hk' ht' hb'
            cases k' with
            | zero => exact le_refl _
            | succ k' =>
              have hm : e'' ∈ l := List.mem_of_getElem? (by simpa using hk')
              have := hno.1 e'' hm ht'
              rw [this] at hb'
              cases hb'
        · right
          refine ⟨?_, ?_⟩
          · intro e' he' ht'
            rcases List.mem_cons.1 he' with rfl | he'
            · by_contra hb
              exact he ⟨ht', by simpa using hb⟩
            · exact hno.1 e' he' ht'
          · intro hrt
            have e1 : r.t = s1.t := le_antisymm h1 (by rw [hrt]; exact g1)
            rw [hno.2 e1]
            exact g5 (by rw [← e1]; exact hrt) (by rw [← e1]; exact he)

theorem lineT_iff {sq : K → K} (hsq : IsSqrt sq) {a b p q : K × K} (hab : a ≠ b) (u : K) :
    (mkEdge sq a b).lineT p.1 p.2 q.1 q.2 = some u ↔ ¬ Parallel a b p q ∧ cross3 a b (pointAt p q u) = 0 := by
  obtain ⟨hL, -⟩ := hsq _ (edge_len_pos hab)
  obtain ⟨L, hLdef⟩ : ∃ L, L = sq ((b.2 - a.2) * (b.2 - a.2) + (b.1 - a.1) * (b.1 - a.1)) := ⟨_, rfl⟩
  rw [← hLdef] at hL
  have hL0 : L ≠ 0 := hL.ne'
  obtain ⟨a1, a2⟩ := a
  obtain ⟨b1, b2⟩ := b
  obtain ⟨p1, p2⟩ := p
  obtain ⟨q1, q2⟩ := q
  unfold Parallel
  simp only [Edge.lineT, mkEdge, ← hLdef]
  obtain ⟨den, hden⟩ : ∃ d, d = (q2 - p2) * (b1 - a1) + (p1 - q1) * (b2 - a2) := ⟨_, rfl⟩
  simp only at hLdef ⊢
  rw [← hden]
  have hN : -(b2 - a2) / L * (q1 - p1) + (b1 - a1) / L * (q2 - p2) = den / L := by
    rw [hden]; ring
  have hM : -(b2 - a2) / L * (a1 - p1) + (b1 - a1) / L * (a2 - p2)
      = ((b1 - a1) * (a2 - p2) - (b2 - a2) * (a1 - p1)) / L := by ring
  rw [hN, hM, div_div_div_cancel_right₀ hL0]
  by_cases hd : den = 0
  · simp [hd]
  · rw [if_neg (by rw [div_eq_zero_iff]; exact fun h => h.elim hd hL0)]
    have : cross3 (a1, a2) (b1, b2) (pointAt (p1, p2) (q1, q2) u)
        = u * den - ((b1 - a1) * (a2 - p2) - (b2 - a2) * (a1 - p1)) := by
      simp only [cross3, pointAt, hden]; ring
    rw [this, sub_eq_zero, Option.some.injEq, div_eq_iff hd]
    constructor
    · exact fun h => ⟨hd, h.symm⟩
    · exact fun h => h.2.symm

theorem lineT_border_iff {sq : K → K} (hsq : IsSqrt sq) {a b p q : K × K} (hab : a ≠ b) (u : K) :
    ((mkEdge sq a b).lineT p.1 p.2 q.1 q.2 = some u ∧ (mkEdge sq a b).borderOk p.1 p.2 q.1 q.2 = true) ↔
      ¬ Parallel a b p q ∧ OnSegment a b (pointAt p q u) := by
  rw [← cross_iff hsq hab]
  have hl := fun v => lineT_iff (p := p) (q := q) hsq hab v
  unfold Edge.borderOk Edge.cross
  simp only [decide_eq_true_eq]
  have hpd : (q.2 - p.2) * ((mkEdge sq a b).bx - (mkEdge sq a b).ax) +
      (p.1 - q.1) * ((mkEdge sq a b).by' - (mkEdge sq a b).ay) = 0 ↔ Parallel a b p q := Iff.rfl
  by_cases hd : (q.2 - p.2) * ((mkEdge sq a b).bx - (mkEdge sq a b).ax) +
      (p.1 - q.1) * ((mkEdge sq a b).by' - (mkEdge sq a b).ay) = 0
  · rw [if_pos hd]
    constructor
    · exact fun h => absurd hd h.2.1
    · intro h
      rw [if_neg (by intro h; linarith [h.1])] at h
      cases h
  · rw [if_neg hd]
    obtain ⟨w, hw⟩ : ∃ w, (mkEdge sq a b).lineT p.1 p.2 q.1 q.2 = some w := by
      unfold Edge.lineT
      rw [if_neg]
      · exact ⟨_, rfl⟩
      · intro h0
        have := hl 0
        have h1 := hl 1
        unfold Edge.lineT at this h1
        rw [if_pos h0] at this h1
        have n0 : cross3 a b (pointAt p q 0) ≠ 0 := fun h => by cases this.2 ⟨fun h => hd (hpd.2 h), h⟩
        obtain ⟨c, hc⟩ : ∃ c, cross3 a b (pointAt p q c) = 0 := by
          refine ⟨(cross3 a b p) / (cross3 a b p - cross3 a b q), ?_⟩
          have hne : cross3 a b p - cross3 a b q ≠ 0 := by
            intro h
            apply hd
            rw [hpd]
            unfold Parallel
            simp only [cross3] at h
            linear_combination -h
          rw [cross3_pointAt]
          field_simp
          ring
        have h2 := hl c
        unfold Edge.lineT at h2
        rw [if_pos h0] at h2
        cases h2.2 ⟨fun h => hd (hpd.2 h), hc⟩
    have hw' : (((mkEdge sq a b).nx * ((mkEdge sq a b).ax - p.1) + (mkEdge sq a b).ny * ((mkEdge sq a b).ay - p.2)) /
        ((mkEdge sq a b).nx * (q.1 - p.1) + (mkEdge sq a b).ny * (q.2 - p.2))) = w := by
      unfold Edge.lineT at hw
      by_cases h0 : (mkEdge sq a b).nx * (q.1 - p.1) + (mkEdge sq a b).ny * (q.2 - p.2) = 0
      · rw [if_pos h0] at hw; cases hw
      · rw [if_neg h0] at hw
        exact Option.some.inj hw
    rw [hw, hw']
    constructor
    · rintro ⟨h1, -, h2, h3⟩
      rw [if_pos ⟨h2, h3⟩]
      exact h1
    · intro h
      split_ifs at h with hc
      exact ⟨h, hd, hc⟩

end PyECLOUD
