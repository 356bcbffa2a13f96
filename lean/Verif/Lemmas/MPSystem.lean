import Verif.Spec.Cloud
import Verif.Lemmas.Np

set_option linter.unusedSectionVars false

namespace PyECLOUD

variable {K : Type} [Field K]

theorem particles_ext (l₁ l₂ : List (Particle K))
    (h : ∀ f, l₁.map (fun p => p f) = l₂.map (fun p => p f)) : l₁ = l₂ := by
  have hlen : l₁.length = l₂.length := by
    have := congrArg List.length (h .x); simpa using this
  apply List.ext_getElem hlen
  intro i h1 h2
  funext f
  have h3 : (l₁.map (fun p => p f))[i]'(by simpa using h1) = (l₂.map (fun p => p f))[i]'(by simpa using h2) := by
    simp only [h f]
  simpa using h3

@[simp] theorem live_length (s : MPs K) : s.live.length = s.nmp := by simp [MPs.live]

/-- column `f` of the live particles -/
theorem live_col (s : MPs K) (f : Fld) (h : s.nmp ≤ (s.arr f).length) :
    s.live.map (fun p => p f) =
      if s.tracked f then (s.arr f).take s.nmp else List.replicate s.nmp (-1) := by
  unfold MPs.live
  split
  · next ht =>
    apply List.ext_getElem
    · simp [h]
    · intro i h1 h2
      have hi : i < s.nmp := by simpa using h1
      simp [ht, List.getD_eq_getElem?_getD, List.getElem?_eq_getElem (show i < (s.arr f).length by omega)]
  · next ht =>
    apply List.ext_getElem
    · simp
    · intro i h1 h2
      simp [ht]

theorem live_col_main (s : MPs K) (h : s.WF) (f : Fld) (hf : f ≠ .tl) :
    s.live.map (fun p => p f) = (s.arr f).take s.nmp := by
  rw [live_col s f (by rw [h.len]; exact h.fits)]
  simp [MPs.tracked, hf]

theorem charge_live (s : MPs K) (h : s.WF) : totalCharge s.live = ((s.arr .nel).take s.nmp).sum := by
  rw [totalCharge, live_col_main s h .nel (by decide)]

theorem sum_zero_of_getD (l : List K) (h : ∀ i, l.getD i 0 = 0) : l.sum = 0 := by
  induction l with
  | nil => rfl
  | cons a l ih =>
    have h0 := h 0
    simp at h0
    simp only [List.sum_cons, h0, zero_add]
    apply ih
    intro i
    simpa using h (i + 1)

/-- with a zero tail the whole size array sums to the live charge -/
theorem charge_live_zeroTail (s : MPs K) (h : s.WF) (hz : s.ZeroTail) :
    totalCharge s.live = (s.arr .nel).sum := by
  rw [charge_live s h]
  conv_rhs => rw [← List.take_append_drop s.nmp (s.arr .nel)]
  rw [List.sum_append, sum_zero_of_getD ((s.arr .nel).drop s.nmp), add_zero]
  intro i
  have := hz (s.nmp + i) (by omega)
  simpa [List.getD_eq_getElem?_getD, List.getElem?_drop] using this

section compact

variable (s : MPs K) (k : List Bool)

/-- keep mask used by all compactions: arbitrary on the live part, `False` on the dead part -/
def fullMask (s : MPs K) (k : List Bool) : List Bool :=
  k ++ List.replicate (s.cap - s.nmp) false

theorem fullMask_length (h : s.WF) (hk : k.length = s.nmp) : (fullMask s k).length = s.cap := by
  have := h.fits
  simp [fullMask, hk]; omega

theorem countTrue_fullMask : countTrue (fullMask s k) = countTrue k := by
  simp [fullMask]

theorem maskSel_fullMask (h : s.WF) (hk : k.length = s.nmp) (f : Fld) :
    maskSel (s.arr f) (fullMask s k) = maskSel ((s.arr f).take s.nmp) k := by
  unfold fullMask
  rw [maskSel_prefix _ _ _ (by rw [hk, h.len]; exact h.fits), hk]

theorem maskSel_arr_length (h : s.WF) (hk : k.length = s.nmp) (f : Fld) :
    (maskSel (s.arr f) (fullMask s k)).length = countTrue k := by
  rw [maskSel_length _ _ (by rw [fullMask_length s k h hk, h.len]), countTrue_fullMask]

theorem compact_wf (h : s.WF) (hk : k.length = s.nmp) (b : Bool) :
    (s.compact (fullMask s k) b).WF := by
  have hc : countTrue k ≤ s.cap := by
    have := countTrue_le_length k
    have := h.fits
    omega
  have hl : ∀ f, (setPrefix (s.arr f) (maskSel (s.arr f) (fullMask s k))).length = s.cap := by
    intro f
    rw [setPrefix_length _ _ (by rw [maskSel_arr_length s k h hk, h.len]; exact hc), h.len]
  have hcap : (s.compact (fullMask s k) b).cap = s.cap := by
    simp only [MPs.cap, MPs.compact]
    exact hl .x
  constructor
  · intro f
    rw [hcap]
    cases f <;> simp only [MPs.compact, zeroTail_length, hl]
    cases b
    · simpa using h.len .tl
    · simpa using hl .tl
  · rw [hcap]
    simp only [MPs.compact, countTrue_fullMask]
    exact hc

theorem compact_nmp : (s.compact (fullMask s k) s.lifetime).nmp = countTrue k := by
  simp [MPs.compact, countTrue_fullMask]

theorem compact_live (h : s.WF) (hk : k.length = s.nmp) :
    (s.compact (fullMask s k) s.lifetime).live = maskSel s.live k := by
  apply particles_ext
  intro f
  have hwf := compact_wf s k h hk s.lifetime
  rw [live_col _ f (by rw [hwf.len]; exact hwf.fits), maskSel_map,
    live_col s f (by rw [h.len]; exact h.fits), compact_nmp]
  have htr : (s.compact (fullMask s k) s.lifetime).tracked f = s.tracked f := rfl
  rw [htr]
  have hpre : ∀ g, (setPrefix (s.arr g) (maskSel (s.arr g) (fullMask s k))).take (countTrue k)
      = maskSel ((s.arr g).take s.nmp) k := by
    intro g
    rw [← maskSel_fullMask s k h hk g]
    conv_lhs => rw [← maskSel_arr_length s k h hk g]
    rw [setPrefix_take]
  have hc : countTrue k ≤ s.cap := by
    have := countTrue_le_length k
    have := h.fits
    omega
  by_cases ht : s.tracked f
  · simp only [ht, if_true]
    cases f
    case nel =>
      simp only [MPs.compact, countTrue_fullMask]
      rw [zeroTail_take _ _ (by
        rw [setPrefix_length _ _ (by rw [maskSel_arr_length s k h hk, h.len]; exact hc), h.len]
        exact hc)]
      exact hpre .nel
    case tl =>
      have hb : s.lifetime = true := by simpa [MPs.tracked] using ht
      simp only [MPs.compact, hb, if_true]
      exact hpre .tl
    all_goals exact hpre _
  · simp only [ht]
    simp only [Bool.false_eq_true, if_false]
    have : ∀ (n : ℕ) (k : List Bool), k.length = n →
        maskSel (List.replicate n (-1 : K)) k = List.replicate (countTrue k) (-1) := by
      intro n k hk
      apply List.eq_replicate_iff.2
      refine ⟨maskSel_length _ _ (by simp [hk]), ?_⟩
      intro b hb
      have := (maskSel_sublist _ _).subset hb
      exact List.eq_of_mem_replicate this
    rw [this _ _ hk]

theorem compact_zeroTail (h : s.WF) (hk : k.length = s.nmp) (b : Bool) :
    (s.compact (fullMask s k) b).ZeroTail := by
  intro i hi
  have hc : countTrue k ≤ s.cap := by
    have := countTrue_le_length k
    have := h.fits
    omega
  simp only [MPs.compact, countTrue_fullMask] at hi ⊢
  simp only [zeroTail]
  have hlen : (List.take (countTrue k) (setPrefix (s.arr .nel) (maskSel (s.arr .nel) (fullMask s k)))).length = countTrue k := by
    rw [List.length_take, setPrefix_length _ _ (by rw [maskSel_arr_length s k h hk, h.len]; exact hc), h.len]
    omega
  rw [List.getD_eq_getElem?_getD, List.getElem?_append_right (by omega), List.getElem?_replicate]
  split <;> simp

end compact

section ops

variable [LinearOrder K]

/-- the keep mask of `clean_small_MPs` restricted to the live part -/
def cleanMask (s : MPs K) : List Bool :=
  ((s.arr .nel).take s.nmp).map (fun v => !decide (v < s.clTh))

theorem clean_flagKeep (s : MPs K) (h : s.WF) :
    clipMask ((s.arr .nel).map (fun v => !decide (v < s.clTh))) s.nmp = fullMask s (cleanMask s) := by
  simp [clipMask, fullMask, cleanMask, List.map_take, h.len]

theorem cleanMask_length (s : MPs K) (h : s.WF) : (cleanMask s).length = s.nmp := by
  have := h.fits
  simp [cleanMask, h.len]; omega

theorem clean_eq (s : MPs K) (h : s.WF) :
    s.clean = if countTrue (cleanMask s) = 0
      then (s.compact (fullMask s (cleanMask s)) s.lifetime).setRef s.ref0
      else s.compact (fullMask s (cleanMask s)) s.lifetime := by
  simp only [MPs.clean, clean_flagKeep s h]
  have : (s.compact (fullMask s (cleanMask s)) s.lifetime).nmp = countTrue (cleanMask s) :=
    compact_nmp s _
  rw [this]
  rfl

theorem setRef_live (s : MPs K) (v : K) : (s.setRef v).live = s.live := rfl

theorem setRef_wf (s : MPs K) (v : K) (h : s.WF) : (s.setRef v).WF := ⟨h.len, h.fits⟩

theorem clean_wf (s : MPs K) (h : s.WF) : s.clean.WF := by
  rw [clean_eq s h]
  have := compact_wf s _ h (cleanMask_length s h) s.lifetime
  split
  · exact setRef_wf _ _ this
  · exact this

theorem clean_zeroTail (s : MPs K) (h : s.WF) : s.clean.ZeroTail := by
  rw [clean_eq s h]
  have := compact_zeroTail s _ h (cleanMask_length s h) s.lifetime
  split
  · exact this
  · exact this

theorem clean_live (s : MPs K) (h : s.WF) :
    s.clean.live = s.live.filter (fun p => decide (s.clTh ≤ p .nel)) := by
  have h1 : s.clean.live = maskSel s.live (cleanMask s) := by
    rw [clean_eq s h]
    split
    · rw [setRef_live, compact_live s _ h (cleanMask_length s h)]
    · rw [compact_live s _ h (cleanMask_length s h)]
  have h2 : cleanMask s = s.live.map (fun p => !decide (p .nel < s.clTh)) := by
    have := live_col_main s h .nel (by decide)
    rw [cleanMask, ← this, List.map_map]; rfl
  rw [h1, h2, maskSel_map_self]
  congr 1
  funext p
  rw [← decide_not]
  simp

theorem clean_cap (s : MPs K) (h : s.WF) : s.clean.cap = s.cap := by
  have hw := compact_wf s _ h (cleanMask_length s h) s.lifetime
  have hcap : (s.compact (fullMask s (cleanMask s)) s.lifetime).cap = s.cap := by
    have hc : countTrue (cleanMask s) ≤ s.cap := by
      have := countTrue_le_length (cleanMask s)
      have := cleanMask_length s h
      have := h.fits
      omega
    simp only [MPs.cap, MPs.compact]
    exact setPrefix_length _ _ (by rw [maskSel_arr_length s _ h (cleanMask_length s h), h.len]; exact hc)
  rw [clean_eq s h]
  split
  · exact hcap
  · exact hcap

/-- survival mask of the soft regeneration -/
def softMask (s : MPs K) (target : ℕ) (rand : ℕ → K) : List Bool :=
  (List.range s.nmp).map (fun i => decide (((s.nmp : K) - (target : K)) / (s.nmp : K) < rand i))

theorem softMask_length (s : MPs K) (target : ℕ) (rand : ℕ → K) :
    (softMask s target rand).length = s.nmp := by simp [softMask]

/-- new reference size of a regeneration with target count `target` -/
def regenRef (s : MPs K) (target : ℕ) : K :=
  if (s.arr .nel).sum / (target : K) < s.ref0 then s.ref0 else (s.arr .nel).sum / (target : K)

/-- state after thinning, before the size correction -/
def softThin (s : MPs K) (target : ℕ) (rand : ℕ → K) : MPs K :=
  (s.setRef (regenRef s target)).compact (fullMask s (softMask s target rand)) s.lifetime

/-- scale the sizes of the live part -/
def scaleLive (s : MPs K) (c : K) : MPs K :=
  { s with arr := fun f =>
      if f = .nel then setPrefix (s.arr .nel) (((s.arr .nel).take s.nmp).map (fun v => v * c))
      else s.arr f }

theorem softRegen_eq (s : MPs K) (target : ℕ) (rand : ℕ → K) (ht : target < s.nmp) :
    s.softRegen target rand = scaleLive (softThin s target rand)
      ((s.arr .nel).sum / ((softThin s target rand).arr .nel).sum) := by
  unfold MPs.softRegen
  rw [if_pos ht]
  rfl

theorem softThin_wf (s : MPs K) (h : s.WF) (target : ℕ) (rand : ℕ → K) : (softThin s target rand).WF :=
  compact_wf (s.setRef (regenRef s target)) _ (setRef_wf _ _ h) (softMask_length s target rand) s.lifetime

theorem softThin_zeroTail (s : MPs K) (h : s.WF) (target : ℕ) (rand : ℕ → K) :
    (softThin s target rand).ZeroTail :=
  compact_zeroTail (s.setRef (regenRef s target)) _ (setRef_wf _ _ h) (softMask_length s target rand) s.lifetime

theorem softThin_live (s : MPs K) (h : s.WF) (target : ℕ) (rand : ℕ → K) :
    (softThin s target rand).live = maskSel s.live (softMask s target rand) :=
  compact_live (s.setRef (regenRef s target)) _ (setRef_wf _ _ h) (softMask_length s target rand)

theorem scaleLive_len (s : MPs K) (h : s.WF) (c : K) (f : Fld) :
    ((scaleLive s c).arr f).length = s.cap := by
  have := h.fits
  simp only [scaleLive]
  split
  · rw [setPrefix_length _ _ (by simp), h.len]
  · exact h.len f

theorem scaleLive_wf (s : MPs K) (h : s.WF) (c : K) : (scaleLive s c).WF := by
  have hl := scaleLive_len s h c
  have hcap : (scaleLive s c).cap = s.cap := hl .x
  exact ⟨fun f => by rw [hcap]; exact hl f, by rw [hcap]; exact h.fits⟩

theorem scaleLive_nel_take (s : MPs K) (h : s.WF) (c : K) :
    ((scaleLive s c).arr .nel).take s.nmp = ((s.arr .nel).take s.nmp).map (fun v => v * c) := by
  have hf := h.fits
  simp only [scaleLive, if_true]
  have hl : (((s.arr .nel).take s.nmp).map (fun v => v * c)).length = s.nmp := by
    simp [h.len]; omega
  have := setPrefix_take (s.arr .nel) (((s.arr .nel).take s.nmp).map (fun v => v * c))
  rwa [hl] at this

theorem scaleLive_live (s : MPs K) (h : s.WF) (c : K) :
    (scaleLive s c).live = s.live.map (fun p => p.set .nel (p .nel * c)) := by
  apply particles_ext
  intro f
  have hwf := scaleLive_wf s h c
  rw [live_col _ f (by rw [hwf.len]; exact hwf.fits), List.map_map]
  have htr : (scaleLive s c).tracked f = s.tracked f := rfl
  have hn : (scaleLive s c).nmp = s.nmp := rfl
  rw [htr, hn]
  by_cases hf : f = .nel
  · subst hf
    have ht : s.tracked .nel = true := rfl
    rw [ht, if_pos rfl, scaleLive_nel_take s h c, ← live_col_main s h .nel (by decide), List.map_map]
    congr 1
  · have e : ((fun p : Particle K => p f) ∘ fun p : Particle K => p.set .nel (p .nel * c)) = fun p => p f := by
      funext p
      simp [Particle.set, Function.update_of_ne hf]
    rw [e, live_col s f (by rw [h.len]; exact h.fits)]
    simp only [scaleLive, hf, if_false]

theorem scaleLive_zeroTail (s : MPs K) (h : s.WF) (hz : s.ZeroTail) (c : K) :
    (scaleLive s c).ZeroTail := by
  intro i hi
  have hf := h.fits
  have hi' : s.nmp ≤ i := hi
  simp only [scaleLive, if_true, setPrefix]
  have hl : (((s.arr .nel).take s.nmp).map (fun v => v * c)).length = s.nmp := by
    simp [h.len]; omega
  rw [List.getD_eq_getElem?_getD, List.getElem?_append_right (by omega), hl, List.getElem?_drop,
    show s.nmp + (i - s.nmp) = i by omega, ← List.getD_eq_getElem?_getD]
  exact hz i hi'

theorem totalCharge_scale (l : List (Particle K)) (c : K) :
    totalCharge (l.map (fun p => p.set .nel (p .nel * c))) = totalCharge l * c := by
  simp only [totalCharge, List.map_map]
  have : ((fun p : Particle K => p .nel) ∘ fun p : Particle K => p.set .nel (p .nel * c)) = fun p => p .nel * c := by
    funext p; simp [Particle.set]
  rw [this]
  induction l with
  | nil => simp
  | cons a l ih => simp [ih, add_mul]

theorem softRegen_wf (s : MPs K) (h : s.WF) (target : ℕ) (rand : ℕ → K) : (s.softRegen target rand).WF := by
  by_cases ht : target < s.nmp
  · rw [softRegen_eq s target rand ht]
    exact scaleLive_wf _ (softThin_wf s h target rand) _
  · unfold MPs.softRegen; rw [if_neg ht]; exact h

theorem softRegen_zeroTail (s : MPs K) (h : s.WF) (hz : s.ZeroTail) (target : ℕ) (rand : ℕ → K) :
    (s.softRegen target rand).ZeroTail := by
  by_cases ht : target < s.nmp
  · rw [softRegen_eq s target rand ht]
    exact scaleLive_zeroTail _ (softThin_wf s h target rand) (softThin_zeroTail s h target rand) _
  · unfold MPs.softRegen; rw [if_neg ht]; exact hz

theorem softRegen_live (s : MPs K) (h : s.WF) (target : ℕ) (rand : ℕ → K) (ht : target < s.nmp) :
    (s.softRegen target rand).live =
      (maskSel s.live (softMask s target rand)).map (fun p => p.set .nel (p .nel *
        ((s.arr .nel).sum / totalCharge (maskSel s.live (softMask s target rand))))) := by
  rw [softRegen_eq s target rand ht, scaleLive_live _ (softThin_wf s h target rand),
    softThin_live s h target rand,
    ← charge_live_zeroTail _ (softThin_wf s h target rand) (softThin_zeroTail s h target rand),
    softThin_live s h target rand]

theorem softThin_cap (s : MPs K) (h : s.WF) (target : ℕ) (rand : ℕ → K) :
    (softThin s target rand).cap = s.cap := by
  have hc : countTrue (softMask s target rand) ≤ s.cap := by
    have := countTrue_le_length (softMask s target rand)
    have := softMask_length s target rand
    have := h.fits
    omega
  simp only [softThin, MPs.cap, MPs.compact]
  exact setPrefix_length _ _ (by
    have := maskSel_arr_length s _ h (softMask_length s target rand) .x
    have h2 := h.len .x
    simp only [MPs.setRef]
    rw [this, h2]; exact hc)

theorem softRegen_cap (s : MPs K) (h : s.WF) (target : ℕ) (rand : ℕ → K) :
    (s.softRegen target rand).cap = s.cap := by
  by_cases ht : target < s.nmp
  · rw [softRegen_eq s target rand ht]
    exact softThin_cap s h target rand
  · unfold MPs.softRegen; rw [if_neg ht]

end ops

/-! ### appending -/

theorem sliceAssign_fits {α : Type} (a : List α) (lo n : ℕ) (src : Src α) (hs : src.Fits n)
    (h : lo + n ≤ a.length) :
    sliceAssign a lo (lo + n) src = .ok (a.take lo ++ src.expand n ++ a.drop (lo + n)) := by
  cases src with
  | scalar v => rw [sliceAssign_scalar _ _ _ _ (by omega) h]; simp [Src.expand]
  | array l => rw [sliceAssign_array _ _ _ _ (by omega) h (by have : l.length = n := hs; omega)]; simp [Src.expand]

theorem Src.expand_length {α : Type} (n : ℕ) (src : Src α) (h : src.Fits n) :
    (src.expand n).length = n := by
  cases src with
  | scalar v => simp [Src.expand]
  | array l => exact h

/-- a sequence of fitting assignments succeeds and writes exactly the listed fields -/
theorem assignAll_ok (arr : Fld → List K) (fs : List Fld) (hnd : fs.Nodup) (lo n : ℕ) (src : Fld → Src K)
    (hs : ∀ f ∈ fs, (src f).Fits n) (h : ∀ f ∈ fs, lo + n ≤ (arr f).length) :
    assignAll arr fs lo (lo + n) src = .ok (fun f => if f ∈ fs then
      (arr f).take lo ++ (src f).expand n ++ (arr f).drop (lo + n) else arr f) := by
  induction fs generalizing arr with
  | nil => simp [assignAll]
  | cons g fs ih =>
    rw [assignAll, sliceAssign_fits _ _ _ _ (hs g (by simp)) (h g (by simp))]
    simp only
    have hg : g ∉ fs := (List.nodup_cons.1 hnd).1
    rw [ih _ (List.nodup_cons.1 hnd).2 (fun f hf => hs f (by simp [hf]))]
    · congr 1
      funext f
      by_cases hfg : f = g
      · subst hfg; simp [hg]
      · simp [hfg]
    · intro f hf
      have : f ≠ g := fun e => hg (e ▸ hf)
      rw [Function.update_of_ne this]
      exact h f (by simp [hf])

theorem srcParticles_col (tr : Fld → Bool) (n : ℕ) (src : Fld → Src K) (f : Fld) (hf : (src f).Fits n) :
    (srcParticles tr n src).map (fun p => p f) =
      if tr f then (src f).expand n else List.replicate n (-1) := by
  have hl := Src.expand_length n (src f) hf
  unfold srcParticles
  split
  · next ht =>
    apply List.ext_getElem
    · simp [hl]
    · intro i h1 h2
      simp [ht, List.getD_eq_getElem?_getD, List.getElem?_eq_getElem h2]
  · next ht =>
    apply List.ext_getElem
    · simp
    · intro i h1 h2
      simp [ht]

/-- the fields written when appending -/
theorem mem_addFields (s : MPs K) (f : Fld) :
    f ∈ (Fld.main ++ if s.lifetime then [Fld.tl] else []) ↔ s.tracked f = true := by
  cases hl : s.lifetime <;> cases f <;> simp [Fld.main, MPs.tracked, hl] <;> decide

theorem addFields_nodup (b : Bool) : (Fld.main ++ if b then [Fld.tl] else []).Nodup := by
  cases b <;> decide

/-- generic append: the first `nmp + n` entries are the old live ones followed by the new block -/
theorem append_live (s s' : MPs K) (h : s.WF) (n : ℕ) (src : Fld → Src K) (hn : s'.nmp = s.nmp + n)
    (hlt : s'.lifetime = s.lifetime) (hcap : s.nmp + n ≤ s.cap)
    (hs : ∀ f, s.tracked f = true → (src f).Fits n)
    (hlen : ∀ f, (s'.arr f).length = (s.arr f).length)
    (ha : ∀ f, s.tracked f = true →
      (s'.arr f).take (s.nmp + n) = (s.arr f).take s.nmp ++ (src f).expand n) :
    s'.live = s.live ++ srcParticles s.tracked n src ∧ s'.WF ∧ s'.cap = s.cap := by
  have hc : s'.cap = s.cap := hlen .x
  have hwf : s'.WF := ⟨fun f => by rw [hc, hlen]; exact h.len f, by rw [hc, hn]; exact hcap⟩
  refine ⟨?_, hwf, hc⟩
  apply particles_ext
  intro f
  have htr : s'.tracked f = s.tracked f := by simp [MPs.tracked, hlt]
  rw [live_col _ f (by rw [hwf.len]; exact hwf.fits), List.map_append,
    live_col s f (by rw [h.len]; exact h.fits), htr, hn]
  by_cases ht : s.tracked f = true
  · rw [srcParticles_col _ _ _ _ (hs f ht)]
    simp only [ht, if_true]
    rw [ha f ht]
  · have ht' : s.tracked f = false := by simpa using ht
    have : (srcParticles s.tracked n src).map (fun p => p f) = List.replicate n (-1) := by
      unfold srcParticles
      apply List.ext_getElem
      · simp
      · intro i h1 h2; simp [ht']
    rw [this]
    simp [ht']

theorem block_take {α : Type} (a l t : List α) (k n : ℕ) (hk : k ≤ a.length) (hl : l.length = n) :
    (a.take k ++ l ++ t).take (k + n) = a.take k ++ l := by
  have : (a.take k ++ l).length = k + n := by simp [hl, hk]
  rw [← this, List.take_left]

theorem addNew_ok (s : MPs K) (h : s.WF) (n : ℕ) (src : Fld → Src K) (hcap : s.nmp + n ≤ s.cap)
    (hs : ∀ f, s.tracked f = true → (src f).Fits n) :
    ∃ s', s.addNew n src = .ok s' ∧ s'.live = s.live ++ srcParticles s.tracked n src ∧ s'.WF
      ∧ s'.cap = s.cap := by
  unfold MPs.addNew
  rw [assignAll_ok _ _ (addFields_nodup _) _ _ _ (fun f hf => hs f ((mem_addFields s f).1 hf))
    (fun f _ => by rw [h.len]; exact hcap)]
  refine ⟨_, rfl, ?_⟩
  have hfit := h.fits
  have := append_live s { s with
      arr := fun f => if f ∈ (Fld.main ++ if s.lifetime then [Fld.tl] else []) then
        (s.arr f).take s.nmp ++ (src f).expand n ++ (s.arr f).drop (s.nmp + n) else s.arr f
      nmp := s.nmp + n }
    h n src rfl rfl hcap hs
    (by
      intro f
      show (if f ∈ (Fld.main ++ if s.lifetime then [Fld.tl] else []) then
        (s.arr f).take s.nmp ++ (src f).expand n ++ (s.arr f).drop (s.nmp + n) else s.arr f).length = _
      by_cases hf : f ∈ (Fld.main ++ if s.lifetime then [Fld.tl] else [])
      · have h1 := Src.expand_length n (src f) (hs f ((mem_addFields s f).1 hf))
        have h2 := h.len f
        rw [if_pos hf]
        simp only [List.length_append, List.length_take, List.length_drop, h1]; omega
      · rw [if_neg hf])
    (by
      intro f hf
      have : f ∈ (Fld.main ++ if s.lifetime then [Fld.tl] else []) := by
        rw [mem_addFields]; exact hf
      simp only [this, if_true]
      exact block_take _ _ _ _ _ (by rw [h.len]; exact hfit) (Src.expand_length n (src f) (hs f hf)))
  exact this

end PyECLOUD
