import Verif.Model.FurmanPivi
import Verif.Lemmas.Sey

set_option linter.unusedSectionVars false

namespace PyECLOUD

variable {K : Type} [Field K] [LinearOrder K]

theorem poissonCut_spec (mCut : ℕ) (draws : ℕ → ℕ → ℕ) (fuel attempt : ℕ) (ns r : List ℕ)
    (h : poissonCut mCut draws fuel attempt ns = .ok r) : (∀ n ∈ r, n ≤ mCut) ∧ r.length = ns.length := by
  induction fuel generalizing attempt ns with
  | zero =>
    unfold poissonCut at h
    split at h
    · next ha => cases h; exact ⟨fun n hn => by simpa using List.all_eq_true.1 ha n hn, rfl⟩
    · cases h
  | succ fuel ih =>
    unfold poissonCut at h
    split at h
    · next ha => cases h; exact ⟨fun n hn => by simpa using List.all_eq_true.1 ha n hn, rfl⟩
    · have := ih _ _ h
      simpa using this

theorem poissonCut_ends (mCut : ℕ) (draws : ℕ → ℕ → ℕ) (fuel attempt : ℕ) (ns : List ℕ)
    (h : 12 ≤ fuel + attempt) (h1 : 1 ≤ fuel) : ∃ r, poissonCut mCut draws fuel attempt ns = .ok r := by
  induction fuel generalizing attempt ns with
  | zero => omega
  | succ fuel ih =>
    unfold poissonCut
    split
    · exact ⟨_, rfl⟩
    · dsimp only
      by_cases hf : 1 ≤ fuel
      · exact ih _ _ (by omega) hf
      · have h0 : fuel = 0 := by omega
        subst h0
        unfold poissonCut
        rw [if_pos]
        · exact ⟨_, rfl⟩
        · rw [List.all_eq_true]
          intro n hn
          obtain ⟨i, hi, rfl⟩ := List.mem_mapIdx.1 hn
          simp only [decide_eq_true_eq]
          have : attempt > 10 := by omega
          split
          · exact Nat.min_le_right _ _
          · omega

theorem putVel_length (rep : List (Emit K)) (imps : List (Impact K)) (mask : List Bool) (ens : List K)
    (ang : ℕ → K → K → K → K × K × K) : (putVel rep imps mask ens ang).length = rep.length := by
  unfold putVel; exact maskPut_length _ _ _

theorem putVel_vel_length (rep : List (Emit K)) (imps : List (Impact K)) (mask : List Bool) (ens : List K)
    (ang : ℕ → K → K → K → K × K × K) (h1 : rep.length = imps.length) (h2 : mask.length = imps.length)
    (h3 : ens.length = countTrue mask) :
    (((maskSel imps mask).zip ens).mapIdx (fun k q => ang k q.2 q.1.nx q.1.ny)).length = countTrue mask ∧
    (maskSel rep mask).length = countTrue mask := by
  refine ⟨?_, maskSel_length _ _ (by omega)⟩
  rw [List.length_mapIdx, List.length_zip, maskSel_length _ _ h2, h3, Nat.min_self]

theorem putVel_still (rep : List (Emit K)) (imps : List (Impact K)) (mask : List Bool) (ens : List K)
    (ang : ℕ → K → K → K → K × K × K) (h1 : rep.length = imps.length) (h2 : mask.length = imps.length)
    (h3 : ens.length = countTrue mask) :
    (putVel rep imps mask ens ang).map Emit.still = rep.map Emit.still := by
  obtain ⟨hv, hr⟩ := putVel_vel_length rep imps mask ens ang h1 h2 h3
  unfold putVel
  dsimp only
  rw [maskPut_map, List.map_map]
  have : (Emit.still ∘ fun q : Emit K × K × K × K => q.1.setV q.2) = fun q => q.1.still := by
    funext q; rfl
  rw [this, map_zip_fst Emit.still _ _ (by omega), maskSel_map, maskPut_maskSel]

/-- the velocities found at the masked entries are the drawn ones -/
theorem putVel_vel (rep : List (Emit K)) (imps : List (Impact K)) (mask : List Bool) (ens : List K)
    (ang : ℕ → K → K → K → K × K × K) (h1 : rep.length = imps.length) (h2 : mask.length = imps.length)
    (h3 : ens.length = countTrue mask) :
    (maskSel (putVel rep imps mask ens ang) mask).map (fun e => (e.vx, e.vy, e.vz)) =
      ((maskSel imps mask).zip ens).mapIdx (fun k q => ang k q.2 q.1.nx q.1.ny) := by
  obtain ⟨hv, hr⟩ := putVel_vel_length rep imps mask ens ang h1 h2 h3
  unfold putVel
  dsimp only
  rw [maskSel_maskPut _ _ _ (by omega) (by rw [List.length_map, List.length_zip]; omega), List.map_map]
  have : (fun e : Emit K => (e.vx, e.vy, e.vz)) ∘ (fun q : Emit K × K × K × K => q.1.setV q.2) = fun q => q.2 := by
    funext q; rfl
  rw [this, map_zip_snd (fun v => v) _ _ (by omega), List.map_id']

theorem putVel_other (rep : List (Emit K)) (imps : List (Impact K)) (mask : List Bool) (ens : List K)
    (ang : ℕ → K → K → K → K × K × K) (k : ℕ) (h : mask.getD k false = false) :
    (putVel rep imps mask ens ang)[k]? = rep[k]? := maskPut_getElem? _ _ _ _ h

/-- generators return one energy per requested one -/
structure FPGens.Ok (g : FPGens K) : Prop where
  back : ∀ l, (g.back l).length = l.length
  red : ∀ l, (g.red l).length = l.length
  true1 : ∀ n l r, g.true1 n l = .ok r → r.length = l.length
  true2 : ∀ n l r, g.true2 n l = .ok r → r.length = l.length

/-- only true secondaries carry a Poisson number -/
def FPEvent.Ok (e : FPEvent K) : Prop := e.kind ≠ .true' → e.n = 0

theorem fpReplace_still (c : FPCfg) (g : FPGens K) (hg : g.Ok) (evs : List (FPEvent K)) :
    (fpReplace c g evs).map Emit.still = evs.map (fun e => (Emit.ofImpact e.imp e.imp.nel).still) ∧
    (fpReplace c g evs).length = evs.length := by
  unfold fpReplace
  dsimp only
  set imps := evs.map (fun e => e.imp) with himps
  have hil : imps.length = evs.length := by simp [himps]
  set back := evs.map (fun e => decide (e.kind = .back)) with hback
  set red := evs.map (fun e => decide (e.kind = .rediff)) with hred
  set rep1 := (if c.useEcloudEnergy then
      evs.map (fun e => if e.kind = .back then
        ({ Emit.ofImpact e.imp e.imp.nel with
          vx := (specular e.imp.vx e.imp.vy e.imp.nx e.imp.ny e.imp.vn).1,
          vy := (specular e.imp.vx e.imp.vy e.imp.nx e.imp.ny e.imp.vn).2 } : Emit K)
        else Emit.ofImpact e.imp e.imp.nel)
    else putVel (imps.map (fun i => Emit.ofImpact i i.nel)) imps back
      (g.back ((maskSel imps back).map (fun i => i.en))) g.angBack) with hrep1
  have h1 : rep1.map Emit.still = evs.map (fun e => (Emit.ofImpact e.imp e.imp.nel).still) ∧
      rep1.length = evs.length := by
    rw [hrep1]
    split
    · refine ⟨?_, by simp⟩
      rw [List.map_map]
      apply List.map_congr_left
      intro e _
      simp only [Function.comp_apply]
      split <;> rfl
    · refine ⟨?_, by rw [putVel_length]; simp [hil]⟩
      rw [putVel_still _ _ _ _ _ (by simp) (by simp [hil, hback])
        (by rw [hg.back, List.length_map, maskSel_length _ _ (by simp [hil, hback])])]
      rw [List.map_map, himps, List.map_map]; rfl
  split
  · exact h1
  · refine ⟨?_, by rw [putVel_length, h1.2]⟩
    rw [putVel_still _ _ _ _ _ (by rw [h1.2, hil]) (by simp [hil, hred])
        (by rw [hg.red, List.length_map, maskSel_length _ _ (by simp [hil, hred])])]
    exact h1.1

theorem conserveLoop_spec (ns : List ℕ) (es : List K) (nadd : List ℕ) (rounds : List (TrueGen K × TrueGen K))
    (en1 en2 : List K) (q : List K × List K) (h : conserveLoop ns es nadd rounds en1 en2 = .ok q) :
    q.1.length = en1.length ∧ q.2.length = en2.length ∧
    ∀ t ∈ ((npRepeat q.1 nadd).zip q.2).zip (npRepeat es nadd), t.1.1 + t.1.2 ≤ t.2 := by
  induction rounds generalizing en1 en2 with
  | nil =>
    unfold conserveLoop at h
    dsimp only at h
    split at h
    · next ha =>
      cases h
      refine ⟨rfl, rfl, fun t ht => ?_⟩
      have := List.all_eq_true.1 ha _ (List.mem_map.2 ⟨t, ht, rfl⟩)
      simpa using this
    · cases h
  | cons g rs ih =>
    unfold conserveLoop at h
    dsimp only at h
    split at h
    · next ha =>
      cases h
      refine ⟨rfl, rfl, fun t ht => ?_⟩
      have := List.all_eq_true.1 ha _ (List.mem_map.2 ⟨t, ht, rfl⟩)
      simpa using this
    · split at h
      · cases h
      · split at h
        · cases h
        · obtain ⟨i1, i2, i3⟩ := ih _ _ h
          exact ⟨by rw [i1, maskPut_length], by rw [i2, maskPut_length], i3⟩

/-- what the Furman-Pivi model returns, in terms of its events -/
structure FPOut (c : FPCfg) (g : FPGens K) (evs : List (FPEvent K)) (out : SeyOut K) (codes : List ℕ) : Prop where
  emit : out.nelEmit = evs.map (fun e => e.imp.nel * (e.nEmit : K))
  codes : codes = evs.map (FPEvent.code c.excludeRediffused)
  still : out.replace.map Emit.still = evs.map (fun e =>
    if e.dead then ((Emit.ofImpact e.imp e.imp.nel).kill).still else (Emit.ofImpact e.imp e.imp.nel).still)
  newStill : out.new.map Emit.still =
    npRepeat (evs.map (fun e => (Emit.ofImpact e.imp e.imp.nel).still)) (evs.map FPEvent.nAdd)
  nontrue : ∀ (k : ℕ) (e : FPEvent K), evs[k]? = some e → e.kind ≠ .true' → out.replace[k]? = (fpReplace c g evs)[k]?
  vel : (evs.map FPEvent.nAdd).sum ≠ 0 → ∃ (e1 e2 : List K) (en : List K × List K),
    g.true1 ((evs.filter FPEvent.alive).map (fun e => e.n)) ((evs.filter FPEvent.alive).map (fun e => e.imp.en)) = .ok e1 ∧
    g.true2 (npRepeat (evs.map (fun e => e.n)) (evs.map FPEvent.nAdd))
      (npRepeat (evs.map (fun e => e.imp.en)) (evs.map FPEvent.nAdd)) = .ok e2 ∧
    (if c.conserveEnergy then conserveLoop ((evs.filter FPEvent.alive).map (fun e => e.n))
      ((evs.filter FPEvent.alive).map (fun e => e.imp.en)) ((evs.filter FPEvent.alive).map FPEvent.nAdd) g.rounds e1 e2
      else .ok (e1, e2)) = .ok en ∧
    en.1.length = (evs.filter FPEvent.alive).length ∧ en.2.length = (evs.map FPEvent.nAdd).sum ∧
    (maskSel out.replace (evs.map FPEvent.alive)).map (fun e => (e.vx, e.vy, e.vz)) =
      ((evs.filter FPEvent.alive).zip en.1).mapIdx (fun k q => g.ang1 k q.2 q.1.imp.nx q.1.imp.ny) ∧
    out.new.map (fun e => (e.vx, e.vy, e.vz)) =
      ((npRepeat (evs.map (fun e => e.imp)) (evs.map FPEvent.nAdd)).zip en.2).mapIdx
        (fun k q => g.ang2 k q.2 q.1.nx q.1.ny)

/-- killing the absorbed ones -/
def fpKill (evs : List (FPEvent K)) (rep : List (Emit K)) : List (Emit K) :=
  (evs.zip rep).map (fun q => if q.1.dead then q.2.kill else q.2)

theorem fpKill_still (evs : List (FPEvent K)) (rep : List (Emit K)) (hl : rep.length = evs.length)
    (h : rep.map Emit.still = evs.map (fun e => (Emit.ofImpact e.imp e.imp.nel).still)) :
    (fpKill evs rep).map Emit.still = evs.map (fun e =>
    if e.dead then ((Emit.ofImpact e.imp e.imp.nel).kill).still else (Emit.ofImpact e.imp e.imp.nel).still) := by
  unfold fpKill
  apply List.ext_getElem
  · simp [hl]
  · intro i h1 h2
    have hi : i < evs.length := by simpa using h2
    have := congrArg (fun l => l[i]?) h
    simp only [List.getElem?_map] at this
    rw [List.getElem?_eq_getElem (by omega : i < rep.length), List.getElem?_eq_getElem hi] at this
    simp only [Option.map_some, Option.some.injEq] at this
    simp only [List.getElem_map, List.getElem_zip]
    split
    · simp only [Emit.still, Emit.kill, Emit.ofImpact, Prod.mk.injEq] at this ⊢
      exact ⟨trivial, trivial, trivial, trivial, this.2.2.2.2⟩
    · exact this

theorem fpKill_get (evs : List (FPEvent K)) (rep : List (Emit K)) (hl : rep.length = evs.length) (k : ℕ)
    (e : FPEvent K) (he : evs[k]? = some e) (hd : e.dead = false) : (fpKill evs rep)[k]? = rep[k]? := by
  unfold fpKill
  have hk : k < evs.length := (List.getElem?_eq_some_iff.1 he).1
  have : evs[k] = e := (List.getElem?_eq_some_iff.1 he).2
  rw [List.getElem?_map, List.getElem?_eq_getElem (by simp; omega), List.getElem?_eq_getElem (by omega)]
  simp [this, hd]

theorem maskSel_congr {α : Type} (l l' : List α) (m : List Bool) (hl : l.length = l'.length)
    (h : ∀ k, m.getD k false = true → l[k]? = l'[k]?) : maskSel l m = maskSel l' m := by
  induction l generalizing l' m with
  | nil =>
    have : l' = [] := List.length_eq_zero_iff.1 (by simpa using hl.symm)
    rw [this]
  | cons a l ih =>
    cases l' with
    | nil => simp at hl
    | cons a' l' =>
      cases m with
      | nil => simp
      | cons b m =>
        have hi := ih l' m (by simpa using hl) (fun k hk => by
          have := h (k + 1) (by simpa using hk)
          simpa using this)
        cases b with
        | false => simp [maskSel, hi]
        | true =>
          have := h 0 (by simp)
          simp at this
          simp [maskSel, hi, this]

theorem seyFP_out (c : FPCfg) (g : FPGens K) (hg : g.Ok) (evs : List (FPEvent K)) (hev : ∀ e ∈ evs, e.Ok)
    (r : SeyOut K × List ℕ) (h : seyFP c g evs = .ok r) : FPOut c g evs r.1 r.2 := by
  obtain ⟨hst, hrl⟩ := fpReplace_still c g hg evs
  unfold seyFP at h
  split at h
  · cases h
  next q hq =>
  cases h
  unfold fpTrue at hq
  dsimp only at hq
  by_cases hany : evs.any (fun e => decide (e.kind = .true')) = true
  swap
  · rw [if_neg hany] at hq
    cases hq
    have hno : ∀ e ∈ evs, e.kind ≠ .true' := by
      intro e he hk
      exact hany (List.any_eq_true.2 ⟨e, he, by simpa using hk⟩)
    have hn0 : ∀ k ∈ evs.map FPEvent.nAdd, k = 0 := by
      intro k hk
      obtain ⟨e, he, rfl⟩ := List.mem_map.1 hk
      simp [FPEvent.nAdd, hev e he (hno e he)]
    have hs0 : (evs.map FPEvent.nAdd).sum = 0 := List.sum_eq_zero hn0
    refine ⟨rfl, rfl, ?_, ?_, fun k e he _ => rfl, fun h => absurd hs0 h⟩
    · rw [hst]
      apply List.map_congr_left
      intro e he
      have : e.dead = false := by simp [FPEvent.dead, hno e he]
      rw [this]; rfl
    · rw [npRepeat_zero _ _ hn0]; rfl
  rw [if_pos hany] at hq
  split at hq
  · cases hq
  next en1 hen1 =>
  have hall : (evs.map FPEvent.alive).length = evs.length := by simp
  have hcl : (evs.filter FPEvent.alive).length = countTrue (evs.map FPEvent.alive) := by
    rw [← maskSel_map_self, maskSel_length _ _ (by simp)]
  have hen1l : en1.length = countTrue (evs.map FPEvent.alive) := by
    rw [hg.true1 _ _ _ hen1, List.length_map, hcl]
  by_cases hsum : (evs.map FPEvent.nAdd).sum = 0
  · rw [if_pos hsum] at hq
    cases hq
    have hn0 : ∀ k ∈ evs.map FPEvent.nAdd, k = 0 := by
      intro k hk
      have := List.le_sum_of_mem hk
      omega
    refine ⟨rfl, rfl, fpKill_still evs _ hrl hst, ?_, ?_, fun h => absurd hsum h⟩
    · rw [npRepeat_zero _ _ hn0]; rfl
    · intro k e he hk
      exact fpKill_get evs _ hrl k e he (by simp [FPEvent.dead, hk])
  rw [if_neg hsum] at hq
  split at hq
  · cases hq
  next en2 hen2 =>
  have hparl : (npRepeat (evs.map (fun e => e.imp)) (evs.map FPEvent.nAdd)).length = (evs.map FPEvent.nAdd).sum :=
    npRepeat_length _ _ (by simp)
  have hen2l : en2.length = (evs.map FPEvent.nAdd).sum := by
    rw [hg.true2 _ _ _ hen2, List.length_map, hparl]
  split at hq
  · cases hq
  next p hp =>
  have hpl : p.1.length = en1.length ∧ p.2.length = en2.length := by
    split at hp
    · have := conserveLoop_spec _ _ _ _ _ _ _ hp
      exact ⟨this.1, this.2.1⟩
    · cases hp; exact ⟨rfl, rfl⟩
  cases hq
  have h1 : (fpReplace c g evs).length = (evs.map (fun e => e.imp)).length := by simp [hrl]
  have h2 : (evs.map FPEvent.alive).length = (evs.map (fun e => e.imp)).length := by simp
  have h3 : p.1.length = countTrue (evs.map FPEvent.alive) := by rw [hpl.1, hen1l]
  have hps := putVel_still (fpReplace c g evs) (evs.map (fun e => e.imp)) (evs.map FPEvent.alive) p.1 g.ang1 h1 h2 h3
  have hpl' := putVel_length (fpReplace c g evs) (evs.map (fun e => e.imp)) (evs.map FPEvent.alive) p.1 g.ang1
  refine ⟨rfl, rfl, fpKill_still evs _ (by rw [hpl', hrl]) (by rw [hps, hst]), ?_, ?_, ?_⟩
  · dsimp only
    rw [List.map_map]
    have : (Emit.still ∘ fun q : Emit K × K × K × K => q.1.setV q.2) = fun q => q.1.still := by
      funext q; rfl
    rw [this, map_zip_fst Emit.still _ _ (by
      rw [List.length_map, List.length_mapIdx, List.length_zip, hparl]; omega), List.map_map, npRepeat_map,
      List.map_map]
    rfl
  · intro k e he hk
    have hd : e.dead = false := by simp [FPEvent.dead, hk]
    have := fpKill_get evs (putVel (fpReplace c g evs) (evs.map (fun e => e.imp)) (evs.map FPEvent.alive) p.1 g.ang1)
      (by rw [hpl', hrl]) k e he hd
    refine this.trans (putVel_other _ _ _ _ _ _ ?_)
    rw [List.getD_eq_getElem?_getD, List.getElem?_map, he]
    simp [FPEvent.alive, hk]
  · intro _
    refine ⟨en1, en2, p, hen1, by rw [npRepeat_map, List.map_map] at hen2; exact hen2, hp, by rw [hcl, h3],
      by rw [hpl.2, hen2l], ?_, ?_⟩
    rotate_left
    · dsimp only
      rw [List.map_map]
      have : (fun e : Emit K => (e.vx, e.vy, e.vz)) ∘ (fun q : Emit K × K × K × K => q.1.setV q.2) = fun q => q.2 := by
        funext q; rfl
      rw [this, map_zip_snd (fun v => v) _ _ (by
        rw [List.length_map, List.length_mapIdx, List.length_zip, hparl]; omega), List.map_id']
    have e1 : maskSel (fpKill evs (putVel (fpReplace c g evs) (evs.map (fun e => e.imp)) (evs.map FPEvent.alive) p.1 g.ang1))
        (evs.map FPEvent.alive) = maskSel (putVel (fpReplace c g evs) (evs.map (fun e => e.imp)) (evs.map FPEvent.alive) p.1 g.ang1)
        (evs.map FPEvent.alive) := by
      apply maskSel_congr
      · unfold fpKill; simp [hpl', hrl]
      · intro k hk
        rw [List.getD_eq_getElem?_getD, List.getElem?_map] at hk
        cases he : evs[k]? with
        | none => rw [he] at hk; simp at hk
        | some e =>
          rw [he] at hk
          simp at hk
          exact fpKill_get evs _ (by rw [hpl', hrl]) k e he (by
            simp [FPEvent.alive, FPEvent.dead] at hk ⊢; intro _; omega)
    have e2 := putVel_vel (fpReplace c g evs) (evs.map (fun e => e.imp)) (evs.map FPEvent.alive) p.1 g.ang1 h1 h2 h3
    have e3 : maskSel (evs.map (fun e => e.imp)) (evs.map FPEvent.alive) = (evs.filter FPEvent.alive).map (fun e => e.imp) := by
      rw [← maskSel_map, maskSel_map_self]
    show (maskSel (fpKill evs _) _).map _ = _
    rw [e1, e2, e3, List.zip_map_left]
    apply List.ext_getElem
    · simp
    · intro i h1 h2
      simp [List.getElem_mapIdx]

theorem FPOut.seyOk {c : FPCfg} {g : FPGens K} {evs : List (FPEvent K)} {out : SeyOut K} {codes : List ℕ}
    (hev : ∀ e ∈ evs, e.Ok) (h : FPOut c g evs out codes) : SeyOk (evs.map (fun e => e.imp)) out := by
  have hlen : out.replace.length = evs.length := by
    have := congrArg List.length h.still
    simpa using this
  constructor
  · rw [List.forall₂_iff_get]
    refine ⟨by simp [hlen], ?_⟩
    intro k h1 h2
    have h1' : k < evs.length := by simpa using h1
    have := congrArg (fun l => l[k]?) h.still
    simp only [List.getElem?_map] at this
    rw [List.getElem?_eq_getElem h2, List.getElem?_eq_getElem h1'] at this
    simp only [Option.map_some, Option.some.injEq] at this
    simp only [List.get_eq_getElem, List.getElem_map]
    split at this
    · simp only [Emit.still, Emit.kill, Emit.ofImpact, Prod.mk.injEq] at this
      exact Or.inr this
    · simp only [Emit.still, Emit.ofImpact, Prod.mk.injEq] at this
      exact Or.inl this.2
  · intro e he
    have : e.still ∈ out.new.map Emit.still := List.mem_map.2 ⟨e, he, rfl⟩
    rw [h.newStill] at this
    obtain ⟨ev, hev, heq⟩ := List.mem_map.1 (npRepeat_mem _ _ _ this)
    refine ⟨ev.imp, List.mem_map.2 ⟨ev, hev, rfl⟩, ?_⟩
    simp only [Emit.still, Emit.ofImpact, Prod.mk.injEq] at heq
    exact ⟨heq.2.1.symm, heq.2.2.1.symm, heq.2.2.2.1.symm, heq.2.2.2.2.symm⟩
  · have e1 : out.replace.map (fun e => e.nel) = evs.map (fun e => if e.dead then 0 else e.imp.nel) := by
      have := congrArg (List.map (fun q : K × K × K × K × ℤ => q.1)) h.still
      rw [List.map_map, List.map_map] at this
      refine this.trans (List.map_congr_left ?_)
      intro e _
      simp only [Function.comp_apply]
      split <;> rfl
    have e2 : out.new.map (fun e => e.nel) = npRepeat (evs.map (fun e => e.imp.nel)) (evs.map FPEvent.nAdd) := by
      have := congrArg (List.map (fun q : K × K × K × K × ℤ => q.1)) h.newStill
      rw [List.map_map, npRepeat_map, List.map_map] at this
      exact this
    rw [h.emit, e1, e2, npRepeat_sum _ _ (by simp)]
    clear h hlen e1 e2
    induction evs with
    | nil => simp
    | cons e evs ih =>
      simp only [List.map_cons, List.sum_cons, List.zipWith_cons_cons]
      rw [ih (fun e he => hev e (by simp [he]))]
      have hk : e.imp.nel * (e.nEmit : K) = (if e.dead then 0 else e.imp.nel) + e.imp.nel * (e.nAdd : K) := by
        have hok := hev e (by simp)
        unfold FPEvent.nEmit FPEvent.nAdd FPEvent.dead
        by_cases hkind : e.kind = .true'
        · rcases Nat.eq_zero_or_pos e.n with h0 | h0
          · simp [hkind, h0]
          · have : ((e.n - 1 : ℕ) : K) = (e.n : K) - 1 := by rw [Nat.cast_sub h0]; simp
            rw [this]
            have hn : e.n ≠ 0 := by omega
            simp [hkind, hn]; ring
        · simp [hkind, hok hkind]
      rw [hk]; ring

end PyECLOUD
