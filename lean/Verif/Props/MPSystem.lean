import Verif.Lemmas.Rebuild

/-!
# Properties of the macroparticle system (C01-C10, C15)

The cloud is observed through `MPs.live` (the list of live macroparticles with all their attributes),
`totalCharge`, and the public sizes `ref`, `split`, `clTh`.
-/

set_option linter.unusedSectionVars false

namespace PyECLOUD

variable {K : Type} [Field K] [LinearOrder K]

/-! ## a concrete cloud used for the non-vacuity examples -/

/-- 3 live macroparticles in arrays of length 5, stale data in the dead slots -/
def toy : MPs ℚ where
  arr := fun f => match f with
    | .x => [1, 2, 3, 4, 5]
    | .y => [0, 1, 0, 1, 0]
    | .z => [0, 0, 0, 0, 0]
    | .vx => [1, -1, 2, -2, 3]
    | .vy => [0, 0, 1, 1, 0]
    | .vz => [5, 4, 3, 2, 1]
    | .nel => [10, 1, 20, 0, 0]
    | .tl => [-1, 7, 8, 9, 10]
  nmp := 3
  ref := 4
  split := 12
  clTh := 2
  ref0 := 4
  factSplit := 3
  factClean := 1 / 2
  lifetime := true

theorem toy_wf : toy.WF := ⟨fun f => by cases f <;> rfl, by decide⟩

theorem toy_zeroTail : toy.ZeroTail := by
  intro i hi
  have : 3 ≤ i := hi
  match i, this with
  | 3, _ => rfl
  | 4, _ => rfl
  | i + 5, _ => rfl

/-- evaluates a concrete run -/
theorem exists_ok {α : Type} {r : Except PyErr α} {p : α → Prop} [DecidablePred p]
    (h : (match r with | .ok s => decide (p s) | .error _ => false) = true) : ∃ s, r = .ok s ∧ p s := by
  cases r with
  | error e => simp at h
  | ok s => exact ⟨s, rfl, by simpa using h⟩

/-! ## C01 -/

/-- C01: cleaning keeps exactly the live macroparticles whose size is at least the threshold, in order
and unchanged in every attribute; dead slots have size zero; the reference size is reset only when
nothing is left. -/
theorem C01_clean_exact (s : MPs K) (h : s.WF) :
    s.clean.live = s.live.filter (fun p => decide (s.clTh ≤ p .nel)) ∧
    s.clean.ZeroTail ∧
    (s.clean.live ≠ [] → s.clean.ref = s.ref) ∧
    (s.clean.live = [] → s.clean.ref = s.ref0) := by
  refine ⟨clean_live s h, clean_zeroTail s h, ?_, ?_⟩
  · intro hne
    unfold MPs.clean at hne ⊢
    simp only at hne ⊢
    split
    · next h0 =>
      rw [if_pos h0] at hne
      exact absurd (List.length_eq_zero_iff.1 ((live_length _).trans h0)) hne
    · rfl
  · intro he
    have hn : s.clean.nmp = 0 := by rw [← live_length, he]; rfl
    unfold MPs.clean at hn ⊢
    simp only at hn ⊢
    split
    · rfl
    · next h0 =>
      rw [if_neg h0] at hn
      exact absurd hn h0

example : toy.WF ∧ toy.live.length = 3 ∧ toy.clean.live.length = 2 ∧ toy.clean.ref = 4 :=
  ⟨toy_wf, by decide +kernel, by decide +kernel, by decide +kernel⟩

/-! ## C02 -/

/-- the survival rule: entry `i` survives iff its draw exceeds `(N_mp - target)/N_mp` -/
def survivors (s : MPs K) (target : ℕ) (rand : ℕ → K) : List (Particle K) :=
  (s.live.zipIdx.filter (fun q => decide (((s.nmp : K) - (target : K)) / (s.nmp : K) < rand q.2))).map (·.1)

theorem maskSel_range {α : Type} (l : List α) (g : ℕ → Bool) :
    maskSel l ((List.range l.length).map g) = (l.zipIdx.filter (fun q => g q.2)).map (·.1) := by
  have : ∀ k, maskSel l ((List.range' k l.length).map g) = ((l.zipIdx k).filter (fun q => g q.2)).map (·.1) := by
    induction l with
    | nil => simp
    | cons a l ih =>
      intro k
      simp only [List.length_cons, List.range'_succ, List.map_cons, List.zipIdx_cons, List.filter_cons]
      by_cases hg : g k
      · simp [maskSel, hg, ih]
      · simp [maskSel, hg, ih]
  rw [List.range_eq_range']
  exact this 0

theorem survivors_eq (s : MPs K) (target : ℕ) (rand : ℕ → K) :
    survivors s target rand = maskSel s.live (softMask s target rand) := by
  unfold survivors softMask
  rw [← live_length s, maskSel_range]

/-- C02 (partial): soft regeneration conserves the total charge whenever at least one macroparticle
survives. Missing from the full property: the outcome in which no macroparticle survives, where the
charge is lost (`C02_violated`). -/
theorem C02_soft_regen_charge_partial [IsStrictOrderedRing K] (s : MPs K) (h : s.WF) (hz : s.ZeroTail)
    (hpos : ∀ p ∈ s.live, 0 < p .nel) (target : ℕ) (rand : ℕ → K)
    (hs : (s.softRegen target rand).live ≠ []) :
    totalCharge (s.softRegen target rand).live = totalCharge s.live := by
  by_cases ht : target < s.nmp
  · rw [softRegen_live s h target rand ht] at hs ⊢
    rw [totalCharge_scale, charge_live_zeroTail s h hz]
    set l := maskSel s.live (softMask s target rand) with hl
    have hne : l ≠ [] := by
      intro he; exact hs (by rw [he]; rfl)
    have hlpos : ∀ p ∈ l, 0 < p .nel := fun p hp => hpos p ((maskSel_sublist _ _).subset hp)
    have : 0 < totalCharge l := by
      unfold totalCharge
      apply List.sum_pos
      · intro x hx
        obtain ⟨p, hp, rfl⟩ := List.mem_map.1 hx
        exact hlpos p hp
      · simpa using hne
    rw [mul_div_assoc', mul_comm, mul_div_assoc, div_self this.ne', mul_one]
  · unfold MPs.softRegen
    rw [if_neg ht]

/-- C02 violated: with unit-interval draws all macroparticles can die, and the whole charge is lost. -/
theorem C02_violated : ∃ (s : MPs ℚ) (target : ℕ) (rand : ℕ → ℚ), s.WF ∧ s.ZeroTail ∧ 0 < target ∧
    (∀ p ∈ s.live, 0 < p .nel) ∧ (∀ i, 0 ≤ rand i ∧ rand i < 1) ∧
    totalCharge (s.softRegen target rand).live ≠ totalCharge s.live := by
  refine ⟨toy, 1, fun _ => 1 / 2, toy_wf, toy_zeroTail, by decide, ?_, fun _ => by norm_num, ?_⟩
  · intro p hp
    simp only [MPs.live] at hp
    obtain ⟨i, hi, rfl⟩ := List.mem_map.1 hp
    have hi' : i < 3 := by simpa [toy] using hi
    match i, hi' with
    | 0, _ => decide +kernel
    | 1, _ => decide +kernel
    | 2, _ => decide +kernel
  · decide +kernel

example : toy.WF ∧ toy.ZeroTail ∧ (toy.softRegen 2 (fun i => if i = 0 then 0 else 1)).nmp = 2 ∧
    totalCharge (toy.softRegen 2 (fun i => if i = 0 then 0 else 1)).live = 31 :=
  ⟨toy_wf, toy_zeroTail, by decide +kernel, by decide +kernel⟩

/-! ## C03 -/

/-- C03: after a soft regeneration the live macroparticles are exactly the survivors, a sub-sequence of
the previous ones, with all attributes unchanged except for one common factor on the sizes; the number
never grows, and nothing happens unless `N_mp` exceeds the target. -/
theorem C03_soft_regen_thins (s : MPs K) (h : s.WF) (target : ℕ) (rand : ℕ → K) :
    (s.nmp ≤ target → s.softRegen target rand = s) ∧
    (target < s.nmp → ∃ c : K, (s.softRegen target rand).live =
        (survivors s target rand).map (fun p => p.set .nel (p .nel * c))) ∧
    (survivors s target rand).Sublist s.live ∧
    (s.softRegen target rand).nmp ≤ s.nmp := by
  have hsub : (survivors s target rand).Sublist s.live := by
    rw [survivors_eq]; exact maskSel_sublist _ _
  have h2 : target < s.nmp → ∃ c : K, (s.softRegen target rand).live =
        (survivors s target rand).map (fun p => p.set .nel (p .nel * c)) := fun ht =>
    ⟨_, by rw [survivors_eq]; exact softRegen_live s h target rand ht⟩
  have h1 : s.nmp ≤ target → s.softRegen target rand = s := fun ht => by
    unfold MPs.softRegen; rw [if_neg (by omega)]
  refine ⟨h1, h2, hsub, ?_⟩
  by_cases ht : target < s.nmp
  · obtain ⟨c, hc⟩ := h2 ht
    rw [← live_length, hc, List.length_map, ← live_length s]
    exact hsub.length_le
  · rw [h1 (by omega)]

example : toy.WF ∧ 2 < toy.nmp ∧ (survivors toy 2 (fun i => if i = 0 then 0 else 1)).length = 2 :=
  ⟨toy_wf, by decide, by decide +kernel⟩

/-! ## C04 -/

section histories

variable [FloorRing K]

/-- C04: after every history of operations the split and cleaning thresholds are the configured multiples
of the reference size, and the reference size is at least its initial value. -/
theorem C04_thresholds_locked (n : ℕ) (ref0 factSplit factClean : K) (lifetime : Bool) (ops : List (MPOp K))
    (s : MPs K) (h : (MPs.init n ref0 factSplit factClean lifetime).runOps ops = .ok s) :
    s.split = factSplit * s.ref ∧ s.clTh = factClean * s.ref ∧ ref0 ≤ s.ref := by
  have hi : (MPs.init n ref0 factSplit factClean lifetime).Locked := ⟨rfl, rfl, le_refl _⟩
  obtain ⟨h1, h2⟩ := runOps_locked _ _ _ hi h
  have e1 : s.factSplit = factSplit := h2.factSplit
  have e2 : s.factClean = factClean := h2.factClean
  have e3 : s.ref0 = ref0 := h2.ref0
  exact ⟨e1 ▸ h1.split, e2 ▸ h1.clTh, e3 ▸ h1.ref⟩

/-- data for the example histories: `n` macroparticles of size 10 at the origin -/
def tenSrc (n : ℕ) (tl : ℚ) : Fld → Src ℚ
  | .nel => .scalar 10
  | .tl => .scalar tl
  | _ => .array (List.replicate n 0)

example : ∃ s, (MPs.init 6 (2 : ℚ) 3 (1 / 2) false).runOps
    [.addNew 4 (tenSrc 4 (-1)), .soft 2 (fun i => if i < 2 then 0 else 1), .clean] = .ok s ∧ s.nmp = 2 ∧
      s.ref = 20 ∧ s.split = 60 := by
  refine ⟨_, rfl, ?_, ?_, ?_⟩ <;> decide +kernel

/-! ## C05 -/

/-- C05 (partial), what `add_new_MPs` does when the new macroparticles fit: it appends exactly the given
block and leaves the existing macroparticles untouched. -/
theorem C05_add_appends (s : MPs K) (h : s.WF) (n : ℕ) (src : Fld → Src K)
    (hs : ∀ f, s.tracked f = true → (src f).Fits n) (hfit : s.nmp + n ≤ s.cap) :
    ∃ s', s.addNew n src = .ok s' ∧ s'.live = s.live ++ srcParticles s.tracked n src := by
  obtain ⟨s', h1, h2, -, -⟩ := addNew_ok s h n src hfit hs
  exact ⟨s', h1, h2⟩

/-- C05 (partial), what it does when they do not fit: it raises. Missing from the full property: one new
macroparticle added to completely full arrays, where numpy broadcasting hides the overflow
(`C05_violated`). -/
theorem C05_add_overflow_raises_partial (s : MPs K) (h : s.WF) (n : ℕ) (src : Fld → Src K) (l : List K)
    (hx : src .x = .array l) (hl : l.length = n) (hover : s.cap < s.nmp + n) (h1 : n = 1 → s.nmp < s.cap) :
    ∃ e, s.addNew n src = .error e := by
  cases hr : s.addNew n src with
  | error e => exact ⟨e, rfl⟩
  | ok s' =>
    have hwf := addNew_wf s s' h n src l hx hl h1 hr
    have hn := (addNew_sameSizes s s' n src hr).2
    have := hwf.1.fits
    rw [hwf.2, hn] at this
    omega

/-- a completely full cloud -/
def fullToy : MPs ℚ := { toy with nmp := 5 }

/-- C05 violated: adding one macroparticle to full arrays does not raise, and the macroparticle is lost
although `N_mp` counts it. -/
theorem C05_violated : ∃ (s : MPs ℚ) (src : Fld → Src ℚ) (s' : MPs ℚ), s.WF ∧
    (∀ f, (src f).Fits 1) ∧ s.nmp = s.cap ∧ s.addNew 1 src = .ok s' ∧
    s'.nmp = s.nmp + 1 ∧ (∀ f, s'.arr f = s.arr f) := by
  refine ⟨fullToy, tenSrc 1 (-1), _, ⟨fun f => by cases f <;> rfl, by decide⟩, ?_, rfl, rfl, rfl, ?_⟩
  · intro f; cases f <;> simp [tenSrc, Src.Fits]
  · intro f; cases f <;> rfl

example : toy.WF ∧ toy.nmp + 2 ≤ toy.cap ∧ (∀ f, (tenSrc 2 (-1) f).Fits 2) ∧ toy.cap < toy.nmp + 3 :=
  ⟨toy_wf, by decide, fun f => by cases f <;> simp [tenSrc, Src.Fits], by decide⟩

/-! ## C06 -/

theorem init_wf (n : ℕ) (ref0 factSplit factClean : K) (lifetime : Bool) :
    (MPs.init n ref0 factSplit factClean lifetime).WF ∧
    (MPs.init n ref0 factSplit factClean lifetime).cap = n := by
  have hl : ∀ f, ((MPs.init n ref0 factSplit factClean lifetime).arr f).length = n := by
    intro f; cases f <;> simp [MPs.init]
  have hc : (MPs.init n ref0 factSplit factClean lifetime).cap = n := hl .x
  exact ⟨⟨fun f => by rw [hc]; exact hl f, by rw [hc]; exact Nat.zero_le n⟩, hc⟩

/-- C06 (partial): along every history that did not raise, `N_mp` never exceeds the allocated number and
all arrays keep their length, provided no operation appends exactly one macroparticle to full arrays
(`AllFit`). Missing: that case, which violates the property (`C06_violated`). -/
theorem C06_capacity_partial (n : ℕ) (ref0 factSplit factClean : K) (lifetime : Bool) (ops : List (MPOp K))
    (s : MPs K) (h : (MPs.init n ref0 factSplit factClean lifetime).runOps ops = .ok s)
    (ha : MPs.AllFit (MPs.init n ref0 factSplit factClean lifetime) ops) :
    s.nmp ≤ n ∧ ∀ f, (s.arr f).length = n := by
  have hi := init_wf n ref0 factSplit factClean lifetime
  obtain ⟨h1, h2⟩ := runOps_wf _ _ _ hi.1 ha h
  rw [hi.2] at h2
  exact ⟨h2 ▸ h1.fits, fun f => h2 ▸ h1.len f⟩

/-- C06 violated: two `add_new_MPs` calls take `N_mp` above the allocated number without an exception. -/
theorem C06_violated : ∃ s, (MPs.init 2 (1 : ℚ) 3 (1 / 2) false).runOps
    [.addNew 2 (tenSrc 2 (-1)), .addNew 1 (tenSrc 1 (-1))] = .ok s ∧ s.nmp = 3 ∧ s.cap = 2 :=
  ⟨_, rfl, rfl, rfl⟩

example : MPs.AllFit (MPs.init 3 (1 : ℚ) 3 (1 / 2) false) [.addNew 2 (tenSrc 2 (-1)), .clean] := by
  intro pre op post hp s1 hr
  match pre, hp with
  | [], hp =>
    simp only [List.nil_append, List.cons.injEq] at hp
    rw [← hp.1]
    exact ⟨⟨_, rfl, rfl⟩, by omega⟩
  | [a], hp =>
    simp only [List.cons_append, List.nil_append, List.cons.injEq] at hp
    rw [← hp.2.1]
    trivial
  | a :: b :: c, hp => simp at hp

/-! ## C07 -/

/-- C07: `add_uniform_MP_distrib` appends macroparticles of exactly the reference size, inside the
chamber, inside the requested rectangle, with `z = 0`; their number is the requested charge divided by
the reference size, rounded down or up, and the added charge differs from the request by less than one
reference size. (`0 ≤ dNel`; the arrays are not already full.) -/
theorem C07_uniform_distrib [IsStrictOrderedRing K] (s s' : MPs K) (h : s.WF) (hn : s.nmp < s.cap)
    (hr : 0 < s.ref) (outside : K → K → Bool) (r : Rect K) (hrx : r.xMin ≤ r.xMax) (hry : r.yMin ≤ r.yMax)
    (v0 dNel : K) (hd : 0 ≤ dNel) (d : UniDraws K)
    (hu : 0 ≤ d.u) (hx0 : ∀ i, InUnit (d.x0 i)) (hy0 : ∀ i, InUnit (d.y0 i))
    (hrd : ∀ q ∈ d.rounds, ∀ i, InUnit (q.1 i) ∧ InUnit (q.2 i))
    (hok : s.addUniform outside r v0 dNel d = .ok s') :
    ∃ new : List (Particle K), s'.live = s.live ++ new ∧
      (new.length : ℤ) = roundedCount (dNel / s.ref) d.u ∧
      (∀ p ∈ new, p .nel = s.ref ∧ outside (p .x) (p .y) = false ∧ p .z = 0 ∧
        p .vx = v0 * (d.rvx - 1 / 2) ∧ p .vy = v0 * (d.rvy - 1 / 2) ∧ p .vz = v0 * (d.rvz - 1 / 2) ∧
        r.xMin ≤ p .x ∧ p .x ≤ r.xMax ∧ r.yMin ≤ p .y ∧ p .y ≤ r.yMax) ∧
      |totalCharge new - dNel| < s.ref := by
  have hq : 0 ≤ dNel / s.ref := div_nonneg hd hr.le
  have hfl : 0 ≤ ⌊dNel / s.ref⌋ := Int.floor_nonneg.2 hq
  have hst : 0 ≤ stochRound (dNel / s.ref) d.u := by
    rcases stochRound_cases (dNel / s.ref) d.u with e | e <;> omega
  have hbound : |((stochRound (dNel / s.ref) d.u : ℤ) : K) * s.ref - dNel| < s.ref := by
    have e : dNel = dNel / s.ref * s.ref := by field_simp
    have h1 := Int.floor_le (dNel / s.ref)
    have h2 := Int.lt_floor_add_one (dNel / s.ref)
    have h3 : |((stochRound (dNel / s.ref) d.u : ℤ) : K) - dNel / s.ref| < 1 := by
      unfold stochRound
      split
      · next hlt => push_cast; rw [abs_lt]; constructor <;> linarith
      · push_cast; rw [abs_lt]; constructor <;> linarith
    have e2 : ((stochRound (dNel / s.ref) d.u : ℤ) : K) * s.ref - dNel =
        (((stochRound (dNel / s.ref) d.u : ℤ) : K) - dNel / s.ref) * s.ref := by
      rw [sub_mul, ← e]
    rw [e2, abs_mul, abs_of_pos hr]
    nlinarith
  by_cases hpos : 0 < (stochRound (dNel / s.ref) d.u).toNat
  · obtain ⟨pts, hp1, hp2, hp3⟩ := addUniform_live s s' h hn outside r v0 dNel d hok hpos
    have hin := rejectLoop_inside _ _ _ _ _ hp1
    have hgen : ∀ u v, InUnit u → InUnit v →
        r.xMin ≤ (uniGen r.xMax r.xMin r.yMax r.yMin () u v).1 ∧
        (uniGen r.xMax r.xMin r.yMax r.yMin () u v).1 ≤ r.xMax ∧
        r.yMin ≤ (uniGen r.xMax r.xMin r.yMax r.yMin () u v).2 ∧
        (uniGen r.xMax r.xMin r.yMax r.yMin () u v).2 ≤ r.yMax := by
      intro u v hu hv
      obtain ⟨a1, a2⟩ := hu
      obtain ⟨b1, b2⟩ := hv
      refine ⟨?_, ?_, ?_, ?_⟩ <;> simp only [uniGen] <;> nlinarith
    have hrect := rejectLoop_pred outside (uniGen r.xMax r.xMin r.yMax r.yMin)
      (fun p => r.xMin ≤ p.2.1 ∧ p.2.1 ≤ r.xMax ∧ r.yMin ≤ p.2.2 ∧ p.2.2 ≤ r.yMax) d.rounds
      (fun q hq i c => hgen _ _ (hrd q hq i).1 (hrd q hq i).2) _ _ (by
        intro p hp
        obtain ⟨i, -, rfl⟩ := List.mem_map.1 hp
        exact hgen _ _ (hx0 i) (hy0 i)) hp1
    refine ⟨_, hp3, ?_, ?_, ?_⟩
    · have : ((pts.length : ℕ) : ℤ) = stochRound (dNel / s.ref) d.u := by
        rw [hp2]; omega
      simp only [srcParticles, List.length_map, List.length_range]
      rw [this]
      exact stochRound_eq _ _
    · intro p hp
      obtain ⟨i, hi, hpf⟩ := mem_srcParticles _ _ _ _ hp
      have hmem := List.getElem_mem (l := pts) hi
      have ex : p .x = pts[i].2.1 := by
        rw [hpf .x]
        simp [MPs.tracked, uniSrc, Src.expand, List.getD_eq_getElem?_getD, List.getElem?_eq_getElem hi]
      have ey : p .y = pts[i].2.2 := by
        rw [hpf .y]
        simp [MPs.tracked, uniSrc, Src.expand, List.getD_eq_getElem?_getD, List.getElem?_eq_getElem hi]
      have en : p .nel = s.ref := by
        rw [hpf .nel]
        simp [MPs.tracked, uniSrc, Src.expand, List.getD_eq_getElem?_getD, hi]
      have ez : p .z = 0 := by
        rw [hpf .z]
        simp [MPs.tracked, uniSrc, Src.expand, List.getD_eq_getElem?_getD, hi]
      have ev : p .vx = v0 * (d.rvx - 1 / 2) ∧ p .vy = v0 * (d.rvy - 1 / 2) ∧ p .vz = v0 * (d.rvz - 1 / 2) := by
        refine ⟨?_, ?_, ?_⟩
        · rw [hpf .vx]
          simp [MPs.tracked, uniSrc, Src.expand, List.getD_eq_getElem?_getD, hi]
        · rw [hpf .vy]
          simp [MPs.tracked, uniSrc, Src.expand, List.getD_eq_getElem?_getD, hi]
        · rw [hpf .vz]
          simp [MPs.tracked, uniSrc, Src.expand, List.getD_eq_getElem?_getD, hi]
      rw [ex, ey]
      exact ⟨en, hin _ hmem, ez, ev.1, ev.2.1, ev.2.2, hrect _ hmem⟩
    · have : totalCharge (srcParticles s.tracked pts.length (fun f => if f = .tl then
          .array (((s.arr .tl).drop s.nmp).take pts.length) else uniSrc s v0 d pts f))
          = ((stochRound (dNel / s.ref) d.u : ℤ) : K) * s.ref := by
        unfold totalCharge
        rw [srcParticles_col _ _ _ .nel (by simp [uniSrc, Src.Fits])]
        simp only [MPs.tracked, uniSrc, Src.expand, reduceCtorEq, if_false, bne_iff_ne, ne_eq, not_false_eq_true,
          Bool.or_eq_true, true_or, if_true, List.sum_replicate, nsmul_eq_mul]
        congr 1
        rw [hp2]
        have : (((stochRound (dNel / s.ref) d.u).toNat : ℤ) : K) = ((stochRound (dNel / s.ref) d.u : ℤ) : K) := by
          rw [Int.toNat_of_nonneg hst]
        rw [← this, Int.cast_natCast]
      rw [this]
      exact hbound
  · rw [addUniform_none s outside r v0 dNel d hpos] at hok
    simp only [Except.ok.injEq] at hok
    subst hok
    have h0 : stochRound (dNel / s.ref) d.u = 0 := by omega
    refine ⟨[], by simp, ?_, by simp, ?_⟩
    · rw [← stochRound_eq, h0]; simp
    · rw [h0] at hbound
      simpa [totalCharge] using hbound

/-- draws for the examples: one rejected point, then an accepted one -/
def toyDraws : UniDraws ℚ where
  u := 3 / 4
  x0 := fun _ => 0
  y0 := fun _ => 0
  rounds := [(fun _ => 1 / 2, fun _ => 1 / 2)]
  rvx := 1 / 2
  rvy := 1 / 2
  rvz := 1 / 2

example : ∃ s', toy.addUniform (fun x y => decide (1 < x ^ 2 + y ^ 2)) ⟨1, -1, 1, -1⟩ 1 9 toyDraws = .ok s' ∧
    s'.nmp = 5 ∧ totalCharge s'.live = 31 + 8 := exists_ok (by decide +kernel)

/-- C07: a limit that is not given is the aperture of the chamber on that side. -/
theorem C07_default_limits (xAper yAper : K) (xMax xMin yMax yMin : Option K) :
    (Rect.ofOpt xAper yAper xMax xMin yMax yMin).xMax = (match xMax with | some v => v | none => xAper) ∧
    (Rect.ofOpt xAper yAper xMax xMin yMax yMin).xMin = (match xMin with | some v => v | none => -xAper) ∧
    (Rect.ofOpt xAper yAper xMax xMin yMax yMin).yMax = (match yMax with | some v => v | none => yAper) ∧
    (Rect.ofOpt xAper yAper xMax xMin yMax yMin).yMin = (match yMin with | some v => v | none => -yAper) := by
  cases xMax <;> cases xMin <;> cases yMax <;> cases yMin <;> exact ⟨rfl, rfl, rfl, rfl⟩

/-! ## C69 -/

/-- C69: `add_uniform_ele_density` draws `n * area / nel_mp_ref` points (stochastically rounded) uniformly in the
rectangle and adds a macroparticle of reference size, at rest in z and without impact history, at exactly those that
are inside the chamber. -/
theorem C69_uniform_density [FloorRing K] (s s' : MPs K) (h : s.WF) (hn : s.nmp < s.cap)
    (outside : K → K → Bool) (r : Rect K) (v0 nEle : K) (d : UniDraws K)
    (hok : s.addDensity outside r v0 nEle d = .ok s') :
    ∃ new : List (Particle K), s'.live = s.live ++ new ∧
      new.map (fun p => (p .x, p .y)) =
        ((List.range (roundedCount (nEle * ((r.xMax - r.xMin) * (r.yMax - r.yMin)) / s.ref) d.u).toNat).map
          (fun i => (r.xMin + (r.xMax - r.xMin) * d.x0 i, r.yMin + (r.yMax - r.yMin) * d.y0 i))).filter
          (fun q => outside q.1 q.2 = false) ∧
      ∀ p ∈ new, p .nel = s.ref ∧ p .z = 0 ∧ p .tl = -1 ∧ p .vx = v0 * (d.rvx - 1 / 2) ∧
        p .vy = v0 * (d.rvy - 1 / 2) ∧ p .vz = v0 * (d.rvz - 1 / 2) := by
  refine ⟨_, addDensity_live s s' h hn outside r v0 nEle d hok, ?_, ?_⟩
  · have key : ∀ pts : List (Unit × K × K), (srcParticles s.tracked pts.length (uniSrc s v0 d pts)).map (fun p => (p .x, p .y))
        = pts.map (·.2) := by
      intro pts
      apply List.ext_getElem (by simp [srcParticles])
      intro i hi _
      have hi' : i < pts.length := by simpa [srcParticles] using hi
      simp [srcParticles, MPs.tracked, uniSrc, Src.expand, List.getElem?_eq_getElem hi']
    rw [key, ← stochRound_eq, mul_assoc, List.filter_map, List.filter_map, List.map_map]
    have e1 : ((fun p : Unit × K × K => !outside p.2.1 p.2.2) ∘
        fun i => ((), uniGen r.xMax r.xMin r.yMax r.yMin () (d.x0 i) (d.y0 i)))
        = (fun q : K × K => decide (outside q.1 q.2 = false)) ∘
        fun i => (r.xMin + (r.xMax - r.xMin) * d.x0 i, r.yMin + (r.yMax - r.yMin) * d.y0 i) := by
      funext i
      simp only [Function.comp, uniGen, add_comm]
      cases outside (r.xMin + (r.xMax - r.xMin) * d.x0 i) (r.yMin + (r.yMax - r.yMin) * d.y0 i) <;> rfl
    rw [e1]
    apply List.map_congr_left
    intro i _
    simp only [Function.comp, uniGen, add_comm]
  · intro p hp
    obtain ⟨i, hi, hpf⟩ := mem_srcParticles _ _ _ _ hp
    refine ⟨?_, ?_, ?_, ?_, ?_, ?_⟩
    · rw [hpf .nel]; simp [MPs.tracked, uniSrc, Src.expand, List.getD_eq_getElem?_getD, hi]
    · rw [hpf .z]; simp [MPs.tracked, uniSrc, Src.expand, List.getD_eq_getElem?_getD, hi]
    · rw [hpf .tl]
      split
      · simp only [uniSrc, Src.expand]
        rw [List.getD_eq_getElem?_getD, List.getElem?_replicate, if_pos hi]
        rfl
      · rfl
    · rw [hpf .vx]; simp [MPs.tracked, uniSrc, Src.expand, List.getD_eq_getElem?_getD, hi]
    · rw [hpf .vy]; simp [MPs.tracked, uniSrc, Src.expand, List.getD_eq_getElem?_getD, hi]
    · rw [hpf .vz]; simp [MPs.tracked, uniSrc, Src.expand, List.getD_eq_getElem?_getD, hi]

/-! ## C08 -/

/-- C08 (partial), uniform density: all new macroparticles have last-impact time -1. -/
theorem C08_density_no_history_partial (s s' : MPs K) (h : s.WF) (hn : s.nmp < s.cap)
    (outside : K → K → Bool) (r : Rect K) (v0 nEle : K) (d : UniDraws K)
    (hok : s.addDensity outside r v0 nEle d = .ok s') :
    ∃ new, s'.live = s.live ++ new ∧ ∀ p ∈ new, p .tl = -1 := by
  refine ⟨_, addDensity_live s s' h hn outside r v0 nEle d hok, ?_⟩
  intro p hp
  obtain ⟨i, hi, hpf⟩ := mem_srcParticles _ _ _ _ hp
  rw [hpf .tl]
  split
  · simp only [uniSrc, Src.expand]
    rw [List.getD_eq_getElem?_getD, List.getElem?_replicate, if_pos hi]
    rfl
  · rfl

/-- C08 (partial), from a dictionary without impact times: all new macroparticles have last-impact time -1. -/
theorem C08_file_no_history_partial (s : MPs K) (h : s.WF) (d : MPDict K) (ht : d.hasTl = false)
    (hl : ∀ f, f ≠ .tl → (d.data f).length = d.n) (hfit : s.nmp + d.n ≤ s.cap) :
    ∃ s' new, s.addDict d = .ok s' ∧ s'.live = s.live ++ new ∧ new.length = d.n ∧ ∀ p ∈ new, p .tl = -1 := by
  obtain ⟨s', h1, h2, -, -⟩ := addNew_ok s h d.n (dictSrc d) hfit (by
    intro f _
    cases f <;> simp [dictSrc, ht, Src.Fits, hl])
  refine ⟨s', _, h1, h2, by simp [srcParticles], ?_⟩
  intro p hp
  obtain ⟨i, hi, hpf⟩ := mem_srcParticles _ _ _ _ hp
  rw [hpf .tl]
  split
  · simp only [dictSrc, ht, Src.expand]
    simp only [Bool.false_eq_true, if_false]
    rw [List.getD_eq_getElem?_getD, List.getElem?_replicate, if_pos hi]
    rfl
  · rfl

/-- C08 violated: a macroparticle created by `add_uniform_MP_distrib` inherits the last-impact time of a
macroparticle that was removed earlier. -/
theorem C08_violated : ∃ s, (MPs.init 4 (4 : ℚ) 3 3 true).runOps
    [.addNew 2 (tenSrc 2 7), .clean, .addUniform (fun _ _ => false) ⟨1, -1, 1, -1⟩ 1 8 toyDraws] = .ok s ∧
    s.live.map (fun p => p .tl) = [7, 7] := exists_ok (by decide +kernel)

example : ∃ s', toy.addDensity (fun _ _ => false) ⟨1, -1, 1, -1⟩ 1 2 toyDraws = .ok s' ∧ s'.nmp = 5 :=
  exists_ok (by decide +kernel)

/-! ## C09 -/

/-- C09 (partial): whatever happened in between (`s₂` is any later state whose arrays are large enough),
`init_from_dict(extract_dict())` restores exactly the macroparticles present at extraction, except that
their last-impact times are reset to -1. Missing: last-impact times are not restored (`C09_violated`). -/
theorem C09_dict_round_trip_partial (s s₂ : MPs K) (h : s.WF) (h₂ : s₂.WF) (hcap : s.nmp ≤ s₂.cap) :
    ∃ s₃, s₂.initDict s.extractDict = .ok s₃ ∧ s₃.live = s.live.map (fun p => p.set .tl (-1)) := by
  have hs : ∀ f, (dictSrc s.extractDict f).Fits s.nmp := by
    intro f
    have := h.fits
    cases f <;> simp [dictSrc, MPs.extractDict, Src.Fits, h.len, this]
  obtain ⟨s₃, h1, h2, -, -⟩ := addNew_ok { s₂ with nmp := 0 } ⟨h₂.len, Nat.zero_le _⟩ s.nmp
    (dictSrc s.extractDict) (by rw [Nat.zero_add]; exact hcap) (fun f _ => hs f)
  refine ⟨s₃, h1, ?_⟩
  rw [h2]
  have e0 : (MPs.live { s₂ with nmp := 0 } : List (Particle K)) = [] := rfl
  rw [e0, List.nil_append]
  apply particles_ext
  intro f
  rw [srcParticles_col _ _ _ f (hs f), List.map_map]
  by_cases hf : f = .tl
  · subst hf
    have : ((fun p : Particle K => p .tl) ∘ fun p : Particle K => p.set .tl (-1)) = fun _ => -1 := by
      funext p; simp [Particle.set]
    rw [this]
    have e : (dictSrc s.extractDict .tl).expand s.nmp = List.replicate s.nmp (-1) := rfl
    rw [e, List.map_const', live_length]
    split <;> rfl
  · have : ((fun p : Particle K => p f) ∘ fun p : Particle K => p.set .tl (-1)) = fun p => p f := by
      funext p; simp [Particle.set, Function.update_of_ne hf]
    rw [this, live_col_main s h f hf]
    have ht : (MPs.tracked { s₂ with nmp := 0 } f) = true := by simp [MPs.tracked, hf]
    rw [ht, if_pos rfl]
    cases f <;> simp_all [dictSrc, MPs.extractDict, Src.expand]

/-- C09 violated: with lifetime histograms enabled the restored macroparticles have lost their
last-impact times. -/
theorem C09_violated : ∃ (s s₃ : MPs ℚ), s.WF ∧ s.initDict s.extractDict = .ok s₃ ∧
    s.live.map (fun p => p .tl) = [-1, 7, 8] ∧ s₃.live.map (fun p => p .tl) = [-1, -1, -1] := by
  refine ⟨toy, _, toy_wf, rfl, ?_, ?_⟩ <;> decide +kernel

example : toy.WF ∧ (MPs.init 8 (4 : ℚ) 3 3 true).WF ∧ toy.nmp ≤ (MPs.init 8 (4 : ℚ) 3 3 true).cap :=
  ⟨toy_wf, (init_wf _ _ _ _ _).1, by decide⟩

/-! ## C10 -/

theorem dropDead_charge (s : MPs K) (h : s.WF) : (s.dropDead.arr .nel).sum = totalCharge s.live := by
  rw [charge_live s h]
  simp [MPs.dropDead, zeroTail]

theorem dropDead_eq (s : MPs K) (hz : s.ZeroTail) : s.dropDead = s := by
  have : zeroTail (s.arr .nel) s.nmp = s.arr .nel := by
    apply List.ext_getElem
    · simp
    · intro i h1 h2
      by_cases hi : i < s.nmp
      · simp only [zeroTail]
        rw [List.getElem_append_left (by simp; omega)]
        simp
      · have := hz i (by omega)
        rw [List.getD_eq_getElem?_getD, List.getElem?_eq_getElem h2] at this
        simp only [zeroTail]
        rw [List.getElem_append_right (by simp; omega)]
        simp only [List.getElem_replicate]
        simpa using this.symm
  unfold MPs.dropDead
  rw [this, Function.update_eq_self]

/-- C10: in the simulation loop every regeneration acts exactly as if all dead slots had been cleared
first (`maintenanceLive`), so the charge it redistributes is the charge of the live macroparticles
(`dropDead_charge`), whatever stale data the dead slots contain. The callers never skip the cleaning
without skipping the regenerations (PyEC4PyHT.py:597-598). -/
theorem C10_dead_slots_ignored (s : MPs K) (h : s.WF) (hc : 0 < s.cap) (newPass skipClean skipRegen : Bool)
    (hskip : skipClean = true → skipRegen = true) (full : FullCfg K) (cfg : RegenCfg)
    (fuel : ℕ) (d : FullDraws K) (randSoft randAsync : ℕ → K) :
    s.maintenance newPass skipClean skipRegen full cfg fuel d randSoft randAsync =
      s.maintenanceLive newPass skipClean skipRegen full cfg fuel d randSoft randAsync := by
  have hasync : ∀ s3 : MPs K, s3.WF → (match cfg.async with
      | none => s3
      | some (thr, target) =>
        if s3.nmp > thr then
          if s3.clean.nmp > thr then s3.clean.dropDead.softRegen target randAsync else s3.clean
        else s3) = s3.checkAsync cfg randAsync := by
    intro s3 h3
    unfold MPs.checkAsync
    rw [dropDead_eq s3.clean (clean_zeroTail s3 h3)]
    cases cfg.async <;> rfl
  unfold MPs.maintenance MPs.maintenanceLive
  simp only
  by_cases hb : (newPass && !skipRegen) = true
  · simp only [hb, if_true]
    have hsc : skipClean = false := by
      cases hs : skipClean
      · rfl
      · rw [hskip hs] at hb; simp at hb
    have hnp : newPass = true := by
      cases newPass <;> simp_all
    have e1 : (newPass && !skipClean) = true := by rw [hsc, hnp]; rfl
    simp only [e1, if_true]
    have hcw := clean_wf s h
    rw [dropDead_eq _ (clean_zeroTail s h)]
    cases hr : s.clean.checkRegen full fuel d with
    | error e => rfl
    | ok s2 =>
      have hw2 := checkRegen_wf s.clean s2 hcw (by rw [clean_cap s h]; exact hc) full fuel d hr
      have hz2 : s2.ZeroTail := by
        by_cases ht : full.trigger s.clean = true
        · obtain ⟨hist, iCut, -, -, e3⟩ := checkRegen_ok s.clean s2 full fuel d hr ht
          have hcx := cutX_wf (s.clean.setRef (s.clean.newRef full.nAfter)) (setRef_wf _ _ hcw)
            (xMaxOf full hist.length iCut)
          refine rebuild_zeroTail _ s2 hcx.1 ?_ full _ d e3
          rw [hcx.2.1]
          have : (s.clean.setRef (s.clean.newRef full.nAfter)).cap = s.clean.cap := rfl
          rw [this, clean_cap s h]
          exact hc
        · rw [checkRegen_not_trigger _ _ _ _ (by simpa using ht)] at hr
          simp only [Except.ok.injEq] at hr
          subst hr
          exact clean_zeroTail s h
      simp only
      rw [dropDead_eq s2 hz2]
      have hw3 : (s2.checkSoft cfg randSoft).WF :=
        checkSoft_cases s2 cfg randSoft (fun s => s.WF) hw2.1 (fun _ t _ _ => softRegen_wf s2 hw2.1 t randSoft)
      have := hasync _ hw3
      exact congrArg Except.ok this.symm
  · have hb' : (newPass && !skipRegen) = false := by simpa using hb
    simp only [hb', Bool.false_eq_true, if_false]
    have hw : (if (newPass && !skipClean) = true then s.clean else s).WF := by
      split
      · exact clean_wf s h
      · exact h
    exact congrArg Except.ok (hasync _ hw).symm

/-- C10, outside the simulation loop: a direct `perform_soft_regeneration` after `init_from_dict` does count
the stale sizes left in the dead slots, and the live charge jumps. -/
theorem C10_direct_use_violated : ∃ (s s₂ : MPs ℚ) (d : MPDict ℚ) (rand : ℕ → ℚ), s.WF ∧
    s.initDict d = .ok s₂ ∧ totalCharge s₂.live = 2 ∧ totalCharge (s₂.softRegen 1 rand).live = 22 := by
  refine ⟨toy, _, ⟨2, fun _ => [1, 1], false⟩, fun i => if i = 0 then 1 else 0, toy_wf, rfl, ?_, ?_⟩ <;>
    decide +kernel

/-- configuration used in the examples -/
def toyCfg : FullCfg ℚ where
  nRegenLow := 0
  nRegen := 100
  nAfter := 2
  histCut := 0
  nx := 3
  ny := 3
  nvx := 3
  nvy := 3
  nvz := 3
  histN := 13
  histBias := -6
  histDx := 1
  yAper := 5
  outside := fun x y => decide (5 < |x| ∨ 5 < |y|)

example : toy.WF ∧ 0 < toy.cap ∧ ((true : Bool) = true → (true : Bool) = true) := ⟨toy_wf, by decide, id⟩

/-! ## C15 -/

/-- C15, full regeneration: nothing changes unless `N_mp > N_mp_regen`, or `N_mp < N_mp_regen_low` with a
reference size above its initial value. -/
theorem C15_full_regen_trigger (s : MPs K) (c : FullCfg K) (fuel : ℕ) (d : FullDraws K)
    (h : s.nmp ≤ c.nRegen) (h' : c.nRegenLow ≤ s.nmp ∨ s.ref ≤ s.ref0) :
    s.checkRegen c fuel d = .ok s := by
  apply checkRegen_not_trigger
  unfold FullCfg.trigger
  simp only [decide_eq_false_iff_not, not_or, not_and, not_lt, gt_iff_lt]
  exact ⟨h, fun hlow => h'.resolve_left (by omega)⟩

/-- C15, full regeneration, converse: when the condition holds the reference size is recomputed, so the
state is replaced by the regenerated one. -/
theorem C15_full_regen_fires (s s' : MPs K) (c : FullCfg K) (fuel : ℕ) (d : FullDraws K)
    (h : c.nRegen < s.nmp ∨ (s.nmp < c.nRegenLow ∧ s.ref0 < s.ref))
    (hok : s.checkRegen c fuel d = .ok s') :
    s'.ref = max s.ref0 ((s.arr .nel).sum / c.nAfter) := by
  have ht : c.trigger s = true := by unfold FullCfg.trigger; simpa using h
  rw [(checkRegen_ref s s' c fuel d hok ht).1]
  unfold MPs.newRef
  simp only
  split
  · next hl => rw [max_eq_left hl.le]
  · next hl => rw [max_eq_right (not_lt.1 hl)]

/-- C15, soft regeneration. -/
theorem C15_soft_trigger (s : MPs K) (cfg : RegenCfg) (rand : ℕ → K) :
    s.checkSoft cfg rand = match cfg.soft with
      | some (thr, target) => if thr < s.nmp then s.softRegen target rand else s
      | none => s := by
  unfold MPs.checkSoft
  cases cfg.soft <;> rfl

/-- C15, asynchronous regeneration: disabled or not above the threshold, nothing changes; above it the
cloud is cleaned, and thinned only if it is still above the threshold. -/
theorem C15_async_trigger (s : MPs K) (cfg : RegenCfg) (rand : ℕ → K) :
    (cfg.async = none → s.checkAsync cfg rand = s) ∧
    (∀ thr target, cfg.async = some (thr, target) →
      (s.nmp ≤ thr → s.checkAsync cfg rand = s) ∧
      (thr < s.nmp → s.clean.nmp ≤ thr → s.checkAsync cfg rand = s.clean) ∧
      (thr < s.nmp → thr < s.clean.nmp → s.checkAsync cfg rand = s.clean.softRegen target rand)) := by
  refine ⟨fun h => by unfold MPs.checkAsync; rw [h], fun thr target h => ⟨fun h1 => ?_, fun h1 h2 => ?_, fun h1 h2 => ?_⟩⟩
  · unfold MPs.checkAsync; rw [h]; simp only; rw [if_neg (by omega)]
  · unfold MPs.checkAsync; rw [h]; simp only; rw [if_pos (by omega), if_neg (by omega)]
  · unfold MPs.checkAsync; rw [h]; simp only; rw [if_pos (by omega), if_pos (by omega)]

example : toy.nmp ≤ toyCfg.nRegen ∧ toyCfg.nRegenLow ≤ toy.nmp := by decide

end histories

end PyECLOUD
