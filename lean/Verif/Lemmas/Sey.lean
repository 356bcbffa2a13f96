import Verif.Lemmas.Impact

set_option linter.unusedSectionVars false

namespace PyECLOUD

theorem maskPut_maskSel {α : Type} (l : List α) (m : List Bool) : maskPut l m (maskSel l m) = l := by
  induction l generalizing m with
  | nil => simp [maskPut_nil_left]
  | cons a l ih =>
    cases m with
    | nil => simp [maskPut]
    | cons b m =>
      cases b with
      | true => simp [maskPut, maskSel, ih]
      | false =>
        have := ih m
        simp only [maskSel]
        cases h : maskSel l m with
        | nil => rw [h] at this; simp [maskPut, this]
        | cons c r => rw [h] at this; simp [maskPut, this]

theorem maskSel_maskPut {α : Type} (l : List α) (m : List Bool) (v : List α) (h : m.length = l.length)
    (hv : v.length = countTrue m) : maskSel (maskPut l m v) m = v := by
  induction l generalizing m v with
  | nil =>
    have hm : m = [] := by simpa using h
    subst hm
    have : v = [] := by simpa [countTrue] using hv
    simp [this]
  | cons a l ih =>
    cases m with
    | nil => simp at h
    | cons b m =>
      cases b with
      | false =>
        have := ih m v (by simpa using h) (by simpa [countTrue] using hv)
        cases v <;> simp [maskPut, maskSel, this]
      | true =>
        cases v with
        | nil => simp [countTrue] at hv
        | cons w v =>
          have := ih m v (by simpa using h) (by simpa [countTrue] using hv)
          simp [maskPut, maskSel, this]

theorem maskPut_hit {α : Type} (l : List α) (m : List Bool) (v : List α) (hv : v.length = countTrue m) (k : ℕ)
    (hm : m[k]? = some true) (x : α) (hx : (maskPut l m v)[k]? = some x) : x ∈ v := by
  induction l generalizing m v k with
  | nil => simp [maskPut_nil_left] at hx
  | cons a l ih =>
    cases m with
    | nil => simp at hm
    | cons b m =>
      cases b with
      | false =>
        have hv' : v.length = countTrue m := by simpa [countTrue] using hv
        cases k with
        | zero => simp at hm
        | succ k =>
          have : maskPut (a :: l) (false :: m) v = a :: maskPut l m v := by cases v <;> rfl
          rw [this] at hx
          exact ih m v hv' k (by simpa using hm) (by simpa using hx)
      | true =>
        cases v with
        | nil => simp [countTrue] at hv
        | cons w v =>
          have hv' : v.length = countTrue m := by simpa [countTrue] using hv
          rw [show maskPut (a :: l) (true :: m) (w :: v) = w :: maskPut l m v from rfl] at hx
          cases k with
          | zero => simp at hx; simp [hx]
          | succ k => exact List.mem_cons_of_mem _ (ih m v hv' k (by simpa using hm) (by simpa using hx))

theorem maskPut_filter {α : Type} (l : List α) (p f : α → Bool) (v : List α) (hv : v.length = countTrue (l.map p))
    (hf : ∀ x ∈ v, f x = false) : (maskPut l (l.map p) v).filter f = l.filter (fun a => !p a && f a) := by
  induction l generalizing v with
  | nil => simp [maskPut_nil_left]
  | cons a l ih =>
    cases hp : p a with
    | false =>
      have hv' : v.length = countTrue (l.map p) := by simpa [countTrue, hp] using hv
      have : maskPut (a :: l) ((a :: l).map p) v = a :: maskPut l (l.map p) v := by
        simp only [List.map_cons, hp]; cases v <;> rfl
      rw [this, List.filter_cons, List.filter_cons, ih v hv' hf]
      simp [hp]
    | true =>
      cases v with
      | nil => simp [countTrue, hp] at hv
      | cons w v =>
        have hv' : v.length = countTrue (l.map p) := by simpa [countTrue, hp] using hv
        have : maskPut (a :: l) ((a :: l).map p) (w :: v) = w :: maskPut l (l.map p) v := by
          simp only [List.map_cons, hp]; rfl
        rw [this, List.filter_cons, List.filter_cons, ih v hv' (fun x hx => hf x (by simp [hx])), hf w (by simp)]
        simp [hp]

theorem maskSel_zip {α β : Type} (l : List α) (l' : List β) (m : List Bool) (h : l.length = l'.length) :
    maskSel (l.zip l') m = (maskSel l m).zip (maskSel l' m) := by
  induction l generalizing l' m with
  | nil => simp
  | cons a l ih =>
    cases l' with
    | nil => simp at h
    | cons a' l' =>
      cases m with
      | nil => simp
      | cons b m => cases b <;> simp [maskSel, ih l' m (by simpa using h)]

theorem npRepeat_length {α : Type} (l : List α) (n : List ℕ) (h : n.length = l.length) :
    (npRepeat l n).length = n.sum := by
  induction l generalizing n with
  | nil =>
    have : n = [] := by simpa using h
    subst this; rfl
  | cons a l ih =>
    cases n with
    | nil => simp at h
    | cons k n => simp [npRepeat, ih n (by simpa using h)]

theorem npRepeat_map {α β : Type} (f : α → β) (l : List α) (n : List ℕ) :
    (npRepeat l n).map f = npRepeat (l.map f) n := by
  induction l generalizing n with
  | nil => cases n <;> rfl
  | cons a l ih => cases n with
    | nil => rfl
    | cons k n => simp [npRepeat, ih]

theorem npRepeat_mem {α : Type} (l : List α) (n : List ℕ) (x : α) (h : x ∈ npRepeat l n) : x ∈ l := by
  induction l generalizing n with
  | nil => cases n <;> simp [npRepeat] at h
  | cons a l ih => cases n with
    | nil => simp [npRepeat] at h
    | cons k n =>
      simp only [npRepeat, List.mem_append, List.mem_replicate] at h
      rcases h with h | h
      · simp [h.2]
      · exact List.mem_cons_of_mem _ (ih n h)

variable {K : Type} [Field K] [LinearOrder K]

/-- everything except the velocity -/
def Emit.still (e : Emit K) : K × K × K × K × ℤ := (e.nel, e.x, e.y, e.z, e.seg)

theorem setV_still (e : Emit K) (v : K × K × K) : (e.setV v).still = e.still := rfl

theorem map_zip_fst {α β γ : Type} (f : α → γ) (l : List α) (l' : List β) (h : l.length ≤ l'.length) :
    (l.zip l').map (fun q => f q.1) = l.map f := by
  rw [← List.map_fst_zip h, List.map_map, List.map_fst_zip h]; rfl

theorem map_zip_snd {α β γ : Type} (f : β → γ) (l : List α) (l' : List β) (h : l'.length ≤ l.length) :
    (l.zip l').map (fun q => f q.2) = l'.map f := by
  rw [← List.map_snd_zip h, List.map_map, List.map_snd_zip h]; rfl

theorem npRepeat_sum (l : List K) (n : List ℕ) (h : n.length = l.length) :
    (npRepeat l n).sum = (List.zipWith (fun (a : K) (k : ℕ) => a * (k : K)) l n).sum := by
  induction l generalizing n with
  | nil =>
    have : n = [] := by simpa using h
    subst this; rfl
  | cons a l ih => cases n with
    | nil => simp at h
    | cons k n => simp [npRepeat, ih n (by simpa using h), mul_comm]

section Floor

variable [FloorRing K]

/-- what an ECLOUD-type emission returns, in terms of its events -/
structure EcloudOut (hill1 hill2 : List K → Except PyErr (List K)) (ang1 ang2 : ℕ → K → K → K → K × K × K) (th : K)
    (evs : List (Impact K × K × Bool)) (out : SeyOut K) : Prop where
  emit : out.nelEmit = evs.map (fun e => e.2.1)
  still : out.replace.map Emit.still = evs.map (fun e => (baseReplace th e.1 e.2.1 e.2.2).still)
  elastic : ∀ (k : ℕ) (ev : Impact K × K × Bool), evs[k]? = some ev → ev.2.2 = true → out.replace[k]? = some (baseReplace th ev.1 ev.2.1 ev.2.2)
  energies : evs.any (fun e => !e.2.2) = true → ∃ en1,
    hill1 ((evs.filter (fun e => !e.2.2)).map (fun e => e.1.en)) = .ok en1 ∧
    (maskSel out.replace (evs.map (fun e => !e.2.2))).map (fun e => (e.vx, e.vy, e.vz)) =
      ((evs.filter (fun e => !e.2.2)).zip en1).mapIdx (fun k q => ang1 k q.2 q.1.1.nx q.1.1.ny)
  newStill : out.new.map Emit.still = npRepeat
    (evs.map (fun e => (baseReplace th e.1 e.2.1 e.2.2).still)) (evs.map (fun e => nAdd th e.2.1 e.2.2))
  newEnergies : out.new ≠ [] → ∃ en2,
    hill2 (npRepeat (evs.map (fun e => e.1.en)) (evs.map (fun e => nAdd th e.2.1 e.2.2))) = .ok en2 ∧
    out.new.map (fun e => (e.vx, e.vy, e.vz)) =
      ((npRepeat (evs.map (fun e => e.1)) (evs.map (fun e => nAdd th e.2.1 e.2.2))).zip en2).mapIdx
        (fun k q => ang2 k q.2 q.1.nx q.1.ny)

theorem baseReplace_still_xyz (th : K) (i : Impact K) (nel : K) (b : Bool) :
    ((baseReplace th i nel b).still).2 = (i.x, i.y, i.z, i.seg) := by
  cases b <;> rfl

theorem countTrue_zero_all (m : List Bool) (h : countTrue m = 0) : ∀ b ∈ m, b = false := by
  intro b hb
  cases b with
  | false => rfl
  | true => exact absurd (List.count_pos_iff.2 hb) (by unfold countTrue at h; omega)

theorem npRepeat_zero {α : Type} (l : List α) (n : List ℕ) (h : ∀ k ∈ n, k = 0) : npRepeat l n = [] := by
  induction l generalizing n with
  | nil => cases n <;> rfl
  | cons a l ih => cases n with
    | nil => rfl
    | cons k n =>
      have : k = 0 := h k (by simp)
      subst this
      simp [npRepeat, ih n (fun k hk => h k (by simp [hk]))]

theorem seyECLOUD_out (hill1 hill2 : List K → Except PyErr (List K)) (ang1 ang2 : ℕ → K → K → K → K × K × K) (th : K)
    (hl1 : ∀ l r, hill1 l = .ok r → r.length = l.length) (hl2 : ∀ l r, hill2 l = .ok r → r.length = l.length)
    (evs : List (Impact K × K × Bool)) (out : SeyOut K)
    (hok : seyECLOUD hill1 hill2 ang1 ang2 th evs = .ok out) : EcloudOut hill1 hill2 ang1 ang2 th evs out := by
  unfold seyECLOUD at hok
  dsimp only at hok
  set tr := evs.map (fun e => !e.2.2) with htr
  set base := evs.map (fun e => baseReplace th e.1 e.2.1 e.2.2) with hbase
  set nadd := evs.map (fun e => nAdd th e.2.1 e.2.2) with hnadd
  have hbl : base.length = evs.length := by simp [hbase]
  have htl : tr.length = evs.length := by simp [htr]
  have hbs : base.map Emit.still = evs.map (fun e => (baseReplace th e.1 e.2.1 e.2.2).still) := by
    rw [hbase, List.map_map]; rfl
  by_cases hct : countTrue tr = 0
  · rw [if_pos hct] at hok
    cases hok
    have hall : ∀ e ∈ evs, e.2.2 = true := by
      intro e he
      have := countTrue_zero_all _ hct (!e.2.2) (List.mem_map.2 ⟨e, he, rfl⟩)
      simpa using this
    have hn0 : ∀ k ∈ nadd, k = 0 := by
      intro k hk
      obtain ⟨e, he, rfl⟩ := List.mem_map.1 hk
      simp [nAdd, hall e he]
    refine ⟨rfl, hbs, ?_, ?_, ?_, ?_⟩
    · intro k ev hk _
      rw [hbase, List.getElem?_map, hk]; rfl
    · intro h
      obtain ⟨e, he, h2⟩ := List.any_eq_true.1 h
      rw [hall e he] at h2; simp at h2
    · rw [npRepeat_zero _ _ hn0]; rfl
    · intro h; exact absurd rfl h
  rw [if_neg hct] at hok
  have hsel : maskSel (evs.map (fun e => e.1)) tr = (evs.filter (fun e => !e.2.2)).map (fun e => e.1) := by
    rw [← maskSel_map, htr, maskSel_map_self]
  have hsel2 : maskSel ((evs.map (fun e => e.1)).map (fun i => i.en)) tr =
      (evs.filter (fun e => !e.2.2)).map (fun e => e.1.en) := by
    rw [← maskSel_map, hsel, List.map_map]; rfl
  rw [hsel2, hsel] at hok
  split at hok
  · cases hok
  next en1 hen1 =>
  have hen1l : en1.length = (evs.filter (fun e => !e.2.2)).length := by
    rw [hl1 _ _ hen1, List.length_map]
  have hfl : (evs.filter (fun e => !e.2.2)).length = countTrue tr := by
    rw [← maskSel_map_self, maskSel_length _ _ (by simp)]
  set vel1 := (((evs.filter (fun e => !e.2.2)).map (fun e => e.1)).zip en1).mapIdx
    (fun k q => ang1 k q.2 q.1.nx q.1.ny) with hvel1
  have hv1 : vel1.length = countTrue tr := by
    rw [hvel1, List.length_mapIdx, List.length_zip, List.length_map, hen1l, hfl, Nat.min_self]
  have hbsel : (maskSel base tr).length = countTrue tr := maskSel_length _ _ (by rw [hbl, htl])
  set put := ((maskSel base tr).zip vel1).map (fun q => q.1.setV q.2) with hput
  have hputl : put.length = countTrue tr := by
    rw [hput, List.length_map, List.length_zip, hbsel, hv1, Nat.min_self]
  set rep := maskPut base tr put with hrep
  have hstill : rep.map Emit.still = evs.map (fun e => (baseReplace th e.1 e.2.1 e.2.2).still) := by
    rw [hrep, maskPut_map, ← hbs]
    have : put.map Emit.still = maskSel (base.map Emit.still) tr := by
      rw [hput, List.map_map, ← maskSel_map Emit.still]
      exact map_zip_fst Emit.still (maskSel base tr) vel1 (by omega)
    rw [this, maskPut_maskSel]
  have hel : ∀ (k : ℕ) (ev : Impact K × K × Bool), evs[k]? = some ev → ev.2.2 = true → rep[k]? = some (baseReplace th ev.1 ev.2.1 ev.2.2) := by
    intro k ev hk hb
    rw [hrep, maskPut_getElem?]
    · rw [hbase, List.getElem?_map, hk]; rfl
    · rw [htr, List.getD_eq_getElem?_getD, List.getElem?_map, hk]
      simp [hb]
  have hvel : (maskSel rep tr).map (fun e => (e.vx, e.vy, e.vz)) =
      ((evs.filter (fun e => !e.2.2)).zip en1).mapIdx (fun k q => ang1 k q.2 q.1.1.nx q.1.1.ny) := by
    rw [hrep, maskSel_maskPut _ _ _ (by rw [hbl, htl]) hputl, hput, List.map_map]
    have : (fun e : Emit K => (e.vx, e.vy, e.vz)) ∘ (fun q : Emit K × K × K × K => q.1.setV q.2) = fun q => q.2 := by
      funext q; rfl
    rw [this, map_zip_snd (fun v => v) _ _ (by omega), List.map_id']
    rw [hvel1, List.zip_map_left]
    apply List.ext_getElem
    · simp
    · intro i h1 h2
      simp [List.getElem_mapIdx]
  by_cases hsum : nadd.sum = 0
  · rw [if_pos hsum] at hok
    cases hok
    have hn0 : ∀ k ∈ nadd, k = 0 := by
      intro k hk
      have := List.le_sum_of_mem hk
      omega
    refine ⟨rfl, hstill, hel, fun _ => ⟨en1, hen1, hvel⟩, ?_, ?_⟩
    · rw [npRepeat_zero _ _ hn0]; rfl
    · intro h; exact absurd rfl h
  rw [if_neg hsum] at hok
  have hparen : (npRepeat (evs.map (fun e => e.1)) nadd).map (fun i => i.en) =
      npRepeat (evs.map (fun e => e.1.en)) nadd := by
    rw [npRepeat_map, List.map_map]; rfl
  rw [hparen] at hok
  split at hok
  · cases hok
  next en2 hen2 =>
  cases hok
  have hnl : nadd.length = evs.length := by simp [hnadd]
  have hparl : (npRepeat (evs.map (fun e => e.1)) nadd).length = nadd.sum :=
    npRepeat_length _ _ (by simp [hnl])
  have hnell : (npRepeat (base.map (fun b => b.nel)) nadd).length = nadd.sum :=
    npRepeat_length _ _ (by simp [hnl, hbl])
  have hen2l : en2.length = nadd.sum := by
    rw [hl2 _ _ hen2]; exact npRepeat_length _ _ (by simp [hnl])
  set par := npRepeat (evs.map (fun e => e.1)) nadd with hpar
  set vel2 := (par.zip en2).mapIdx (fun k q => ang2 k q.2 q.1.nx q.1.ny) with hvel2
  have hv2 : vel2.length = nadd.sum := by
    rw [hvel2, List.length_mapIdx, List.length_zip, hparl, hen2l, Nat.min_self]
  set nelNew := npRepeat (base.map (fun b => b.nel)) nadd with hnel
  have hcl : ((par.zip nelNew).map (fun q => Emit.ofImpact q.1 q.2)).length = nadd.sum := by
    rw [List.length_map, List.length_zip, hparl, hnell, Nat.min_self]
  refine ⟨rfl, hstill, hel, fun _ => ⟨en1, hen1, hvel⟩, ?_, fun _ => ⟨en2, hen2, ?_⟩⟩
  · rw [List.map_map]
    have : (Emit.still ∘ fun q : Emit K × K × K × K => q.1.setV q.2) = fun q => q.1.still := by
      funext q; rfl
    rw [this, map_zip_fst Emit.still _ _ (by omega), List.map_map]
    -- both are repetitions of the same data
    have hzip : par.zip nelNew = npRepeat (evs.map (fun e => (e.1, (baseReplace th e.1 e.2.1 e.2.2).nel))) nadd := by
      rw [hpar, hnel, hbase, List.map_map, hnadd]
      clear * -
      induction evs with
      | nil => rfl
      | cons e evs ih =>
        simp only [List.map_cons, npRepeat]
        rw [List.zip_append (by simp)]
        congr 1
        · simp
    rw [hzip, npRepeat_map, List.map_map]
    congr 1
    apply List.map_congr_left
    intro e _
    have := baseReplace_still_xyz th e.1 e.2.1 e.2.2
    simp only [Emit.still, Function.comp_apply, Emit.ofImpact] at this ⊢
    rw [this]
  · rw [List.map_map]
    have : (fun e : Emit K => (e.vx, e.vy, e.vz)) ∘ (fun q : Emit K × K × K × K => q.1.setV q.2) = fun q => q.2 := by
      funext q; rfl
    rw [this, map_zip_snd (fun v => v) _ _ (by omega), List.map_id']

theorem base_nel_total [IsStrictOrderedRing K] (th : K) (i : Impact K) (e : K) (b : Bool) :
    (baseReplace th i e b).nel * ((nAdd th e b : K) + 1) = e := by
  cases b with
  | true => simp [baseReplace, nAdd, Emit.ofImpact]
  | false =>
    have : ((nAdd th e false : K) + 1) ≠ 0 := by positivity
    simp only [baseReplace, Emit.ofImpact, if_neg (by decide : ¬ (false = true))]
    field_simp

theorem EcloudOut.spots {hill1 hill2 : List K → Except PyErr (List K)}
    {ang1 ang2 : ℕ → K → K → K → K × K × K} {th : K} {evs : List (Impact K × K × Bool)} {out : SeyOut K}
    (h : EcloudOut hill1 hill2 ang1 ang2 th evs out) : List.Forall₂ SameSpot (evs.map (fun e => e.1)) out.replace := by
  have hlen : out.replace.length = evs.length := by
    have := congrArg List.length h.still
    simpa using this
  have hspot : ∀ (e : Emit K) (i : Impact K), e.still.2 = (i.x, i.y, i.z, i.seg) → SameSpot i e := by
    intro e i h
    simp only [Emit.still, Prod.mk.injEq] at h
    exact ⟨h.1, h.2.1, h.2.2.1, h.2.2.2⟩
  rw [List.forall₂_iff_get]
  refine ⟨by simp [hlen], ?_⟩
  intro k h1 h2
  apply hspot
  have h1' : k < evs.length := by simpa using h1
  have := congrArg (fun l => l[k]?) h.still
  simp only [List.getElem?_map] at this
  rw [List.getElem?_eq_getElem h2, List.getElem?_eq_getElem h1'] at this
  simp only [Option.map_some, Option.some.injEq] at this
  simp only [List.get_eq_getElem, this, List.getElem_map]
  exact baseReplace_still_xyz th _ _ _

theorem EcloudOut.seyOk [IsStrictOrderedRing K] {hill1 hill2 : List K → Except PyErr (List K)}
    {ang1 ang2 : ℕ → K → K → K → K × K × K} {th : K} {evs : List (Impact K × K × Bool)} {out : SeyOut K}
    (h : EcloudOut hill1 hill2 ang1 ang2 th evs out) : SeyOk (evs.map (fun e => e.1)) out := by
  have hlen : out.replace.length = evs.length := by
    have := congrArg List.length h.still
    simpa using this
  have hspot : ∀ (e : Emit K) (i : Impact K), e.still.2 = (i.x, i.y, i.z, i.seg) → SameSpot i e := by
    intro e i h
    simp only [Emit.still, Prod.mk.injEq] at h
    exact ⟨h.1, h.2.1, h.2.2.1, h.2.2.2⟩
  constructor
  · exact h.spots.imp (fun _ _ h => Or.inl h)
  · intro e he
    have : e.still ∈ out.new.map Emit.still := List.mem_map.2 ⟨e, he, rfl⟩
    rw [h.newStill] at this
    obtain ⟨ev, hev, heq⟩ := List.mem_map.1 (npRepeat_mem _ _ _ this)
    refine ⟨ev.1, List.mem_map.2 ⟨ev, hev, rfl⟩, hspot _ _ ?_⟩
    rw [← heq]; exact baseReplace_still_xyz th _ _ _
  · have e1 : out.replace.map (fun e => e.nel) = evs.map (fun e => (baseReplace th e.1 e.2.1 e.2.2).nel) := by
      have := congrArg (List.map (fun q : K × K × K × K × ℤ => q.1)) h.still
      rw [List.map_map, List.map_map] at this
      exact this
    have e2 : out.new.map (fun e => e.nel) = npRepeat (evs.map (fun e => (baseReplace th e.1 e.2.1 e.2.2).nel))
        (evs.map (fun e => nAdd th e.2.1 e.2.2)) := by
      have := congrArg (List.map (fun q : K × K × K × K × ℤ => q.1)) h.newStill
      rw [List.map_map, npRepeat_map, List.map_map] at this
      exact this
    rw [h.emit, e1, e2, npRepeat_sum _ _ (by simp)]
    clear * -
    induction evs with
    | nil => simp
    | cons e evs ih =>
      simp only [List.map_cons, List.sum_cons, List.zipWith_cons_cons]
      rw [ih]
      have := base_nel_total th e.1 e.2.1 e.2.2
      linear_combination -this

end Floor

theorem absorber_seyOk (imps : List (Impact K)) : SeyOk imps (seyAbsorber imps) := by
  refine ⟨?_, by simp [seyAbsorber], by simp [seyAbsorber, Emit.ofImpact, Function.comp_def]⟩
  unfold seyAbsorber
  rw [List.forall₂_map_right_iff, List.forall₂_same]
  intro i _
  exact Or.inl ⟨rfl, rfl, rfl, rfl⟩

section reject

variable {α : Type}

theorem enReject_spec (bad : α → K → Bool) (rounds : List (ℕ → K)) (es r : List (α × K))
    (h : enReject bad rounds es = .ok r) :
    (∀ p ∈ r, bad p.1 p.2 = false) ∧ r.map (·.1) = es.map (·.1) := by
  induction rounds generalizing es with
  | nil =>
    unfold enReject at h
    split at h
    · next ha =>
      cases h
      exact ⟨fun p hp => by simpa using List.all_eq_true.1 ha p hp, rfl⟩
    · cases h
  | cons d rs ih =>
    unfold enReject at h
    split at h
    · next ha =>
      cases h
      exact ⟨fun p hp => by simpa using List.all_eq_true.1 ha p hp, rfl⟩
    · obtain ⟨h1, h2⟩ := ih _ h
      refine ⟨h1, ?_⟩
      rw [h2]
      unfold enRedraw
      apply List.ext_getElem
      · simp
      · intro i hi1 hi2
        simp only [List.getElem_map, List.getElem_mapIdx]
        split <;> rfl

/-- the loop ends with every energy either kept or drawn -/
theorem hilleret_length (switch : ℤ) (eTh thLow : K) (d : HillDraws K) (eImp r : List K)
    (h : hilleret switch eTh thLow d eImp = .ok r) : r.length = eImp.length := by
  unfold hilleret at h
  by_cases h0 : switch = 0
  · rw [if_pos h0] at h
    split at h
    · cases h
    · next l hl =>
      cases h
      have := congrArg List.length (enReject_spec _ _ _ _ hl).2
      simpa using this
  rw [if_neg h0] at h
  by_cases h2 : switch = 2
  · rw [if_pos h2] at h
    dsimp only at h
    split at h
    · cases h
    · next l hl =>
      cases h
      have := congrArg List.length (enReject_spec _ _ _ _ hl).2
      simpa using this
  rw [if_neg h2] at h
  split at h <;> cases h

end reject

end PyECLOUD
