import Verif.Props.Timing
import Verif.Props.Coupled

/-!
# Motion of a cloud over a time step in given fields: C150
-/

set_option linter.unusedSectionVars false

namespace PyECLOUD

section agree

variable {K : Type} [Field K] [LinearOrder K] [IsStrictOrderedRing K] [FloorRing K]

theorem substepMode_congr (isBoris unifDt : Bool) (custom : Option (ℕ × K)) (tr tr' : TrackerObj K) (dtCurr : K)
    (h1 : tr.dt = tr'.dt) (h2 : tr.nSub = tr'.nSub) :
    substepMode isBoris unifDt custom tr dtCurr = substepMode isBoris unifDt custom tr' dtCurr := by
  unfold substepMode
  rw [h1, h2]

theorem addE_bx (f : Fields K) (n : ℕ) (ex ey : List K) :
    (f.addE n ex ey).bx = f.bx ∧ (f.addE n ex ey).yb = f.yb ∧ (f.addE n ex ey).bz = f.bz := ⟨rfl, rfl, rfl⟩

theorem motionLoop_congr (tr tr' : TrackerObj K) (cloudF : MPs K → Fields K) (P : MPs K → Fields K → Prop)
    (hP : ∀ s, P s (cloudF s)) (hadd : ∀ s f n ex ey, P s f → P s (f.addE n ex ey))
    (beamE : Option (MPs K → List K × List K)) (h1 : ∀ s f, P s f → tr.step s f = tr'.step s f)
    (h2 : ∀ s f d n, P s f → tr.stepCustom s f d n = tr'.stepCustom s f d n) (nint : ℕ) (dtSub : Option K) (k : ℕ)
    (s : MPs K) : motionLoop tr cloudF beamE nint dtSub k s = motionLoop tr' cloudF beamE nint dtSub k s := by
  induction k generalizing s with
  | zero => rfl
  | succ k ih =>
    have hf : P s (motionFields cloudF beamE s) := by
      unfold motionFields
      cases beamE with
      | none => exact hP s
      | some b => exact hadd _ _ _ _ _ (hP s)
    have ho : motionOne tr nint dtSub s (motionFields cloudF beamE s)
        = motionOne tr' nint dtSub s (motionFields cloudF beamE s) := by
      unfold motionOne
      cases dtSub with
      | none => exact h1 _ _ hf
      | some d => exact h2 _ _ _ _ hf
    unfold motionLoop
    rw [ho]
    cases motionOne tr' nint dtSub s (motionFields cloudF beamE s) with
    | error e => rfl
    | ok s' => exact ih s'

theorem cloudMotion_congr (isBoris unifDt kickMode reinterp : Bool) (custom : Option (ℕ × K)) (tr tr' : TrackerObj K)
    (hdt : tr.dt = tr'.dt) (hn : tr.nSub = tr'.nSub) (qm dtCurr : K) (cloudF : MPs K → Fields K)
    (P : MPs K → Fields K → Prop) (hP : ∀ s, P s (cloudF s)) (hadd : ∀ s f n ex ey, P s f → P s (f.addE n ex ey))
    (beamE : MPs K → List K × List K) (h1 : ∀ s f, P s f → tr.step s f = tr'.step s f)
    (h2 : ∀ s f d n, P s f → tr.stepCustom s f d n = tr'.stepCustom s f d n) (s : MPs K) :
    cloudMotion isBoris unifDt custom kickMode reinterp tr qm dtCurr cloudF beamE s =
      cloudMotion isBoris unifDt custom kickMode reinterp tr' qm dtCurr cloudF beamE s := by
  unfold cloudMotion
  rw [substepMode_congr isBoris unifDt custom tr tr' dtCurr hdt hn]
  cases substepMode isBoris unifDt custom tr' dtCurr with
  | error e => rfl
  | ok mode =>
    dsimp only
    split
    · rfl
    · split
      · rfl
      · exact motionLoop_congr tr tr' cloudF P hP hadd _ h1 h2 _ _ _ _

/-- **C150**: with either Boris tracker a cloud moves in the same way over a time step, whatever the kind of time step and of
sub-steps, the fields of the clouds and of the beams: the one takes gradient and uniform field, the other normal and skew
components, further uniform components, and the magnetic field of the clouds (here the same at all macroparticles), and it is
the sum of all of these that counts. -/
theorem C150_boris_same_motion (g b0x b0y b0z : K) (u0x u0y : Option K) (cx cy cz : K) (bf bs : List K)
    (hinit : multipoleInit (some [b0y, g]) (some [b0x, 0]) = .ok (bf, bs)) (qm dt : K) (n : ℕ)
    (isBoris unifDt kickMode reinterp : Bool) (custom : Option (ℕ × K)) (dtCurr : K) (cloudF : MPs K → Fields K)
    (hF : ∀ s, ∀ i < s.nmp, (cloudF s).bx.getD i 0 = cx ∧ (cloudF s).yb.getD i 0 = cy ∧ (cloudF s).bz.getD i 0 = cz)
    (beamE : MPs K → List K × List K) (s : MPs K) :
    cloudMotion isBoris unifDt custom kickMode reinterp (multipoleObj bf bs u0x u0y (some b0z) qm dt n) qm dtCurr cloudF
        beamE s =
      cloudMotion isBoris unifDt custom kickMode reinterp
        (borisObj (.quad g) ⟨b0x + u0x.getD 0 + cx, b0y + u0y.getD 0 + cy, b0z + cz⟩ qm dt n) qm dtCurr cloudF beamE s := by
  simp only [multipoleInit, List.length_cons, List.length_nil, if_true, Except.ok.injEq, Prod.mk.injEq] at hinit
  obtain ⟨h1, h2⟩ := hinit
  subst h1 h2
  have hB : ∀ (f : Fields K) (i : ℕ), f.bx.getD i 0 = cx ∧ f.yb.getD i 0 = cy ∧ f.bz.getD i 0 = cz → ∀ (x y : K),
      multipoleField (factDivFrom 0 [b0y, g]) (factDivFrom 0 [b0x, 0])
        ((⟨u0x, u0y, some b0z, some f.bx, some f.yb, some f.bz⟩ : CustomB K).at i) x y
      = (BSrc.quad g).getB ⟨b0x + u0x.getD 0 + cx, b0y + u0y.getD 0 + cy, b0z + cz⟩ x y := by
    intro f i hf x y
    obtain ⟨f1, f2, f3⟩ := hf
    simp only [CustomB.at, Option.isSome_some, Bool.or_true, if_true, Option.map_some, Option.getD_some, f1, f2, f3]
    simp [multipoleField, factDivFrom, multipoleLoop, BSrc.getB]
    constructor <;> ring
  refine cloudMotion_congr isBoris unifDt kickMode reinterp custom
    (multipoleObj (factDivFrom 0 [b0y, g]) (factDivFrom 0 [b0x, 0]) u0x u0y (some b0z) qm dt n)
    (borisObj (.quad g) ⟨b0x + u0x.getD 0 + cx, b0y + u0y.getD 0 + cy, b0z + cz⟩ qm dt n) rfl rfl qm dtCurr cloudF
    (fun s f => ∀ i < s.nmp, f.bx.getD i 0 = cx ∧ f.yb.getD i 0 = cy ∧ f.bz.getD i 0 = cz) hF
    (fun s f m ex ey h => h) beamE ?_ ?_ s
  · intro s f hf
    simp only [multipoleObj, borisObj, multipoleStep, multipoleCustomDt, borisStep, ne_eq, not_true_eq_false, and_false,
      if_false]
    congr 1
    refine push_congr _ _ _ (fun i hi => ?_)
    rw [borisSub_congr _ _ _ _ _ (hB f i (hf i hi))]
    rfl
  · intro s f d m hf
    simp only [multipoleObj, borisObj, multipoleCustomDt, ne_eq, not_true_eq_false, and_false, if_false]
    congr 1
    refine push_congr _ _ _ (fun i hi => ?_)
    rw [borisSub_congr _ _ _ _ _ (hB f i (hf i hi))]
    rfl

/-- a magnetic field of the clouds of (1, 2, 3) at all macroparticles and an electric field that depends on the position -/
def exCloudB : MPs ℚ → Fields ℚ := fun s =>
  ⟨(List.range s.nmp).map (fun i => (s.arr .x).getD i 0), [1, 1, 1], List.replicate s.nmp 1, List.replicate s.nmp 2,
    List.replicate s.nmp 3⟩

/-- the hypotheses of `C150_boris_same_motion` are met and the macroparticles do move -/
example : multipoleInit (some [(5 : ℚ), 2]) (some [7, 0]) = .ok ([5, 2], [7, 0]) ∧
    (∀ s, ∀ i < s.nmp, (exCloudB s).bx.getD i 0 = 1 ∧ (exCloudB s).yb.getD i 0 = 2 ∧ (exCloudB s).bz.getD i 0 = 3) ∧
    ∃ s', cloudMotion true false none false true (multipoleObj [5, 2] [7, 0] (some 1) none (some 4) 1 (1 / 10) 2) 1 (1 / 10)
      exCloudB noBeamField exPush = .ok s' ∧
        s'.live.map (fun p : Particle ℚ => p .x) ≠ exPush.live.map (fun p : Particle ℚ => p .x) := by
  refine ⟨by decide +kernel, fun s i hi => ?_, exists_ok (by decide +kernel)⟩
  simp only [exCloudB]
  rw [List.getD_eq_getElem _ _ (by simpa using hi), List.getD_eq_getElem _ _ (by simpa using hi),
    List.getD_eq_getElem _ _ (by simpa using hi)]
  simp

end agree

section exact

theorem range_getD (n : ℕ) (f : ℕ → ℝ) (i : ℕ) (h : i < n) : ((List.range n).map f).getD i 0 = f i := by
  rw [List.getD_eq_getElem _ _ (by simpa using h)]
  simp

/-- **C150**, strong dipole: over a time step of a uniform grid each macroparticle is put where any solution of its equation of
motion is after the step of the tracker, in the dipole field and the sum of the electric fields of the clouds and of the beams at
its position. -/
theorem C150_dipole_motion (qm b dt dtCurr : ℝ) (hth : 1 / 10000 ≤ |b * qm * dt|) (cloudF : MPs ℝ → Fields ℝ)
    (beamE : MPs ℝ → List ℝ × List ℝ) (s s' : MPs ℝ) (T : ℕ → ℝ → Phase ℝ)
    (hT : ∀ i < s.nmp, LorentzMotion (-qm) ⟨(cloudF s).ex.getD i 0 + (beamE s).1.getD i 0,
      (cloudF s).ey.getD i 0 + (beamE s).2.getD i 0, 0⟩ ⟨0, b, 0⟩ (T i))
    (h0 : ∀ i, ∀ (hi : i < s.live.length), T i 0 = Particle.phase s.live[i])
    (h : cloudMotion false true none false false (dipoleObj qm b dt) qm dtCurr cloudF beamE s = .ok s') :
    s'.live = s.live.mapIdx (fun i p => Particle.move p (T i dt)) := by
  simp only [cloudMotion, substepMode, dipoleObj, substepPlan, motionLoop, motionOne, motionFields, Bool.false_eq_true,
    if_false, if_true, Except.ok.injEq] at h
  subst h
  refine C39_exact qm b dt hth s _ _ T (fun i hi => ?_) h0
  simp only [Fields.addE]
  rw [range_getD _ _ _ hi, range_getD _ _ _ hi]
  exact hT i hi

/-- **C150**, generalised strong field: the same, in the magnetic field at the position of the macroparticle, where this field
is above the threshold or zero. -/
theorem C150_strong_motion (src : BSrc ℝ) (b0x b0y qm thr dt dtCurr : ℝ) (hq : qm ≠ 0) (hthr : 0 < thr)
    (cloudF : MPs ℝ → Fields ℝ) (beamE : MPs ℝ → List ℝ × List ℝ) (s s' : MPs ℝ) (T : ℕ → ℝ → Phase ℝ) (bx bY : ℕ → ℝ)
    (hb : ∀ i, ∀ (hi : i < s.live.length),
      bx i = (src.getB ⟨b0x, b0y, 0⟩ (s.live[i] .x) (s.live[i] .y)).x ∧
      bY i = (src.getB ⟨b0x, b0y, 0⟩ (s.live[i] .x) (s.live[i] .y)).y)
    (hT : ∀ i < s.nmp, LorentzMotion (-qm) ⟨(cloudF s).ex.getD i 0 + (beamE s).1.getD i 0,
      (cloudF s).ey.getD i 0 + (beamE s).2.getD i 0, 0⟩ ⟨bx i, bY i, 0⟩ (T i))
    (h0 : ∀ i, ∀ (hi : i < s.live.length), T i 0 = Particle.phase s.live[i])
    (hB : ∀ i < s.nmp, thr ≤ Real.sqrt (bx i * bx i + bY i * bY i) ∨ (bx i = 0 ∧ bY i = 0))
    (h : cloudMotion false true none false false (strongObj src b0x b0y qm thr dt) qm dtCurr cloudF beamE s = .ok s') :
    s'.live = s.live.mapIdx (fun i p => Particle.move p (T i dt)) := by
  simp only [cloudMotion, substepMode, strongObj, substepPlan, motionLoop, motionOne, motionFields, Bool.false_eq_true,
    if_false, if_true, Except.ok.injEq] at h
  subst h
  refine C60_exact src b0x b0y qm thr dt hq hthr s _ _ T bx bY hb (fun i hi => ?_) h0 hB
  simp only [Fields.addE]
  rw [range_getD _ _ _ hi, range_getD _ _ _ hi]
  exact hT i hi

/-- solutions of the equations of motion exist for every cloud and all fields, and the motion is never refused -/
example (qm b dt : ℝ) (hx : b * qm ≠ 0) (s : MPs ℝ) (cloudF : MPs ℝ → Fields ℝ) (beamE : MPs ℝ → List ℝ × List ℝ) :
    (∃ s', cloudMotion false true none false false (dipoleObj qm b dt) qm dt cloudF beamE s = .ok s') ∧
    ∃ T : ℕ → ℝ → Phase ℝ, (∀ i < s.nmp, LorentzMotion (-qm) ⟨(cloudF s).ex.getD i 0 + (beamE s).1.getD i 0,
      (cloudF s).ey.getD i 0 + (beamE s).2.getD i 0, 0⟩ ⟨0, b, 0⟩ (T i)) ∧
      ∀ i, ∀ (hi : i < s.live.length), T i 0 = Particle.phase s.live[i] :=
  ⟨⟨_, rfl⟩, fun i => dipoleFlow qm (b * qm) ⟨(cloudF s).ex.getD i 0 + (beamE s).1.getD i 0,
      (cloudF s).ey.getD i 0 + (beamE s).2.getD i 0, 0⟩ (s.live.getD i (fun _ => 0)).phase,
    fun i _ => dipoleFlow_motion qm b _ rfl _ hx,
    fun i hi => by dsimp only; rw [dipoleFlow_zero, List.getD_eq_getElem _ _ hi]⟩

/-- the same in a uniform field of (3, 4) through the generalised tracker -/
example (qm dt : ℝ) (hq : qm ≠ 0) (s : MPs ℝ) (cloudF : MPs ℝ → Fields ℝ) (beamE : MPs ℝ → List ℝ × List ℝ) :
    (∃ s', cloudMotion false true none false false (strongObj .none 3 4 qm 1 dt) qm dt cloudF beamE s = .ok s') ∧
    (1 : ℝ) ≤ Real.sqrt (3 * 3 + 4 * 4) ∧
    ∃ T : ℕ → ℝ → Phase ℝ, (∀ i < s.nmp, LorentzMotion (-qm) ⟨(cloudF s).ex.getD i 0 + (beamE s).1.getD i 0,
      (cloudF s).ey.getD i 0 + (beamE s).2.getD i 0, 0⟩ ⟨3, 4, 0⟩ (T i)) ∧
      ∀ i, ∀ (hi : i < s.live.length), T i 0 = Particle.phase s.live[i] :=
  ⟨⟨_, rfl⟩, Real.one_le_sqrt.2 (by norm_num), fun i => strongFlow qm 5 ⟨(cloudF s).ex.getD i 0 + (beamE s).1.getD i 0,
      (cloudF s).ey.getD i 0 + (beamE s).2.getD i 0, 0⟩ 3 4 (s.live.getD i (fun _ => 0)).phase,
    fun i _ => strongFlow_motion qm 5 _ rfl 3 4 _ hq (by norm_num) (by norm_num),
    fun i hi => by dsimp only; rw [strongFlow_zero, List.getD_eq_getElem _ _ hi]⟩

end exact

end PyECLOUD
