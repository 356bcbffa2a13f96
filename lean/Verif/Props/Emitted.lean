import Verif.Lemmas.Impact
import Verif.Lemmas.Sey
import Verif.Props.Impact

/-!
# What the emission model decides is what the cloud contains: C157
-/

set_option linter.unusedSectionVars false

namespace PyECLOUD

variable {K : Type} [Field K] [LinearOrder K] [IsStrictOrderedRing K] [FloorRing K]

/-- how many of the first `i` macroparticles are outside -/
def outsideBefore (ch : Chamber K) (live : List (Particle K)) (i : ℕ) : ℕ :=
  ((live.take i).filter (fun p => ch.outside (p .x) (p .y))).length

theorem maskPut_at {α : Type} (l : List α) (m : List Bool) (v : List α) (i : ℕ) (h : m[i]? = some true) (hi : i < l.length)
    (hv : v.length = countTrue m) : (maskPut l m v)[i]? = v[countTrue (m.take i)]? := by
  induction l generalizing m v i with
  | nil => simp at hi
  | cons a l ih =>
    cases m with
    | nil => simp at h
    | cons b m =>
      cases b with
      | false =>
        have hp : maskPut (a :: l) (false :: m) v = a :: maskPut l m v := by cases v <;> rfl
        cases i with
        | zero => simp at h
        | succ i =>
          rw [hp, List.getElem?_cons_succ, ih m v i (by simpa using h) (by simpa using hi) (by simpa [countTrue] using hv)]
          simp [countTrue]
      | true =>
        cases v with
        | nil => simp [countTrue] at hv
        | cons w v =>
          have hp : maskPut (a :: l) (true :: m) (w :: v) = w :: maskPut l m v := rfl
          cases i with
          | zero => simp [hp, countTrue]
          | succ i =>
            rw [hp, List.getElem?_cons_succ, ih m v i (by simpa using h) (by simpa using hi) (by simpa [countTrue] using hv)]
            simp [countTrue]

theorem maskSel_at {α : Type} (l : List α) (m : List Bool) (i : ℕ) (h : m[i]? = some true) (hi : i < l.length) :
    (maskSel l m)[countTrue (m.take i)]? = l[i]? := by
  induction l generalizing m i with
  | nil => simp at hi
  | cons a l ih =>
    cases m with
    | nil => simp at h
    | cons b m =>
      cases i with
      | zero =>
        have : b = true := by simpa using h
        subst this
        simp [maskSel, countTrue]
      | succ i =>
        have := ih m i (by simpa using h) (by simpa using hi)
        cases b <;> simpa [maskSel, countTrue] using this

/-- **C157**: in an impact step the emission model is called once, with the impacts of the macroparticles that are outside, in their
order: each with the size and velocity of its macroparticle and the point, normal and segment where the trajectory from the old position
hit the wall. Afterwards the macroparticles inside are in their places with nothing changed; in the place of the `k`-th of those outside
is the `k`-th replacement, with the position, velocity and size the emission model gave it and the present time as time of its last
impact; the additional macroparticles follow in order at the end. If nothing is outside, the cloud is unchanged. -/
theorem C157_emitted (sq : K → K) (c : ImpCfg K) (ch : Chamber K)
    (sey : K → List (Impact K) → Except PyErr (SeyOut K)) (s : MPs K) (hwf : s.WF) (hroom : s.nmp < s.cap)
    (old : List (K × K × K)) (tt : K) (h : ImpHist K) (s' : MPs K) (h' : ImpHist K) (n : ImpCount K)
    (hsey : ∀ imps out, sey s.split imps = .ok out → out.replace.length = imps.length)
    (hok : impactStep sq c ch sey s old tt h = .ok (s', h', n)) :
    ((∀ p ∈ s.live, ch.outside (p .x) (p .y) = false) ∧ s' = s) ∨
    ∃ (imps : List (Impact K)) (out : SeyOut K), sey s.split imps = .ok out ∧
      imps.length = (s.live.filter (fun p => ch.outside (p .x) (p .y))).length ∧
      (∀ (i : ℕ) p, s.live[i]? = some p → ch.outside (p .x) (p .y) = true → ∃ o hit im, old[i]? = some o ∧
        ch.hit o (p .x, p .y, p .z) = .ok hit ∧ imps[outsideBefore ch s.live i]? = some im ∧
        im.nel = p .nel ∧ im.vx = p .vx ∧ im.vy = p .vy ∧ im.vz = p .vz ∧ im.x = hit.x ∧ im.y = hit.y ∧ im.z = hit.z ∧
        im.nx = hit.nx ∧ im.ny = hit.ny ∧ im.seg = hit.seg) ∧
      s'.live.length = s.live.length + out.new.length ∧
      (∀ (i : ℕ) p, s.live[i]? = some p → ch.outside (p .x) (p .y) = false → s'.live[i]? = some p) ∧
      (∀ (i : ℕ) p, s.live[i]? = some p → ch.outside (p .x) (p .y) = true → ∃ e p', out.replace[outsideBefore ch s.live i]? = some e ∧
        s'.live[i]? = some p' ∧ p' .x = e.x ∧ p' .y = e.y ∧ p' .z = e.z ∧ p' .vx = e.vx ∧ p' .vy = e.vy ∧ p' .vz = e.vz ∧
        p' .nel = e.nel ∧ p' .tl = if s.lifetime then tt else -1) ∧
      (∀ (j : ℕ) e, out.new[j]? = some e → ∃ p', s'.live[s.live.length + j]? = some p' ∧ p' .x = e.x ∧ p' .y = e.y ∧ p' .z = e.z ∧
        p' .vx = e.vx ∧ p' .vy = e.vy ∧ p' .vz = e.vz ∧ p' .nel = e.nel ∧ p' .tl = if s.lifetime then tt else -1) := by
  have hcount : ∀ i, countTrue ((outMask s ch).take i) = outsideBefore ch s.live i := by
    intro i
    unfold outMask outsideBefore countTrue
    rw [← List.map_take, List.count_eq_countP, List.countP_map, List.countP_eq_length_filter]
    congr 1
    apply List.filter_congr
    intro p _
    simp [Chamber.out]
  have hget : ∀ (i : ℕ) p, s.live[i]? = some p → (outMask s ch)[i]? = some (ch.outside (p .x) (p .y)) := by
    intro i p hp
    unfold outMask
    rw [List.getElem?_map, hp]
    rfl
  rcases impactStep_cases sq c ch sey s hwf hroom old tt h s' h' n hsey hok with ⟨he, rfl, rfl, rfl⟩ | ⟨hne, hlen, hits, imps, out, r⟩
  · left
    refine ⟨fun p hp => ?_, rfl⟩
    simpa [Chamber.out] using List.filter_eq_nil_iff.1 he p hp
  · right
    have hrepl : (out.replace.map (Emit.particle s.lifetime tt)).length = countTrue (outMask s ch) := by
      rw [List.length_map, hsey _ _ r.sey, r.len, countTrue_outMask]
    have hsl : s.live.length = s.nmp := by simp
    have hfil : s.live.filter ch.out = maskSel s.live (outMask s ch) := (maskSel_map_self _ _).symm
    refine ⟨imps, out, r.sey, r.len, ?_, ?_, ?_, ?_, ?_⟩
    · intro i p hp ho
      have hi := (List.getElem?_eq_some_iff.mp hp).1
      have hm := hget i p hp
      rw [ho] at hm
      have hk := hcount i
      have h1 := maskSel_at s.live (outMask s ch) i hm hi
      have h2 := maskSel_at old (outMask s ch) i hm (by omega)
      rw [hk] at h1 h2
      rw [← hfil, hp] at h1
      set k := outsideBefore ch s.live i
      have ho' : old[i]? = some (old[i]'(by omega)) := List.getElem?_eq_getElem _
      rw [ho'] at h2
      have hz : ((maskSel old (outMask s ch)).zip ((s.live.filter ch.out).map (fun p => (p .x, p .y, p .z))))[k]? =
          some (old[i]'(by omega), (p .x, p .y, p .z)) := by
        rw [List.getElem?_zip_eq_some]
        exact ⟨h2, by rw [List.getElem?_map, h1]; rfl⟩
      have hkz := (List.getElem?_eq_some_iff.mp hz).1
      have hkl : k < hits.length := by rw [← r.hits.length_eq]; exact hkz
      have hh := (List.forall₂_iff_get.1 r.hits).2 k hkz hkl
      simp only [List.get_eq_getElem, (List.getElem?_eq_some_iff.mp hz).2] at hh
      refine ⟨_, hits[k], mkImpact sq c.ke p hits[k], ho', hh, ?_, rfl, rfl, rfl, rfl, rfl, rfl, rfl, rfl, rfl, rfl⟩
      rw [r.imps, List.getElem?_map]
      have : ((s.live.filter ch.out).zip hits)[k]? = some (p, hits[k]) := by
        rw [List.getElem?_zip_eq_some]
        exact ⟨h1, List.getElem?_eq_getElem hkl⟩
      rw [this]
      rfl
    · rw [r.live, List.length_append, maskPut_length, List.length_map]
    · intro i p hp ho
      have hi := (List.getElem?_eq_some_iff.mp hp).1
      rw [r.live, List.getElem?_append_left (by rw [maskPut_length]; exact hi), maskPut_getElem? _ _ _ _ ?_, hp]
      rw [List.getD_eq_getElem?_getD, hget i p hp, ho]
      rfl
    · intro i p hp ho
      have hi := (List.getElem?_eq_some_iff.mp hp).1
      have hm := hget i p hp
      rw [ho] at hm
      have h1 := maskPut_at s.live (outMask s ch) (out.replace.map (Emit.particle s.lifetime tt)) i hm hi hrepl
      rw [hcount i, List.getElem?_map] at h1
      cases he : out.replace[outsideBefore ch s.live i]? with
      | none =>
        rw [he] at h1
        have := List.getElem?_eq_none_iff.mp h1
        rw [maskPut_length] at this
        omega
      | some e =>
        rw [he] at h1
        refine ⟨e, e.particle s.lifetime tt, rfl, ?_, rfl, rfl, rfl, rfl, rfl, rfl, rfl, rfl⟩
        rw [r.live, List.getElem?_append_left (by rw [maskPut_length]; exact hi), h1]
        rfl
    · intro j e he
      refine ⟨e.particle s.lifetime tt, ?_, rfl, rfl, rfl, rfl, rfl, rfl, rfl, rfl⟩
      rw [r.live, List.getElem?_append_right (by rw [maskPut_length]; omega), maskPut_length, Nat.add_sub_cancel_left, List.getElem?_map, he]
      rfl

/-- the hypotheses of `C157_emitted`: three macroparticles, one of them outside -/
example : toy.WF ∧ toy.nmp < toy.cap ∧ (toy.live.filter slab.out).length = 1 ∧
    (∀ imps out, slabSey toy.split imps = .ok out → out.replace.length = imps.length) ∧
    ∃ r, impactStep (fun v => v) slabCfg slab slabSey toy toyOld 20 slabHist = .ok r ∧ r.1.nmp = 5 :=
  ⟨toy_wf, by decide, by decide +kernel, fun imps out h => (slabSey_ok _ imps out h).replace.length_eq.symm,
    exists_ok (by decide +kernel)⟩

end PyECLOUD
