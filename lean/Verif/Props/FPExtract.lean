import Verif.Model.FPExtract
import Verif.Spec.FPExtract
import Verif.Props.Impact
import Verif.Props.Emission
import Verif.Props.Extract
import Verif.Lemmas.Distribution
import Mathlib.Data.List.GetD

/-!
# The yield curves of the Furman-Pivi surface at start-up (C183)
-/

set_option linter.unusedSectionVars false

namespace PyECLOUD

variable {K : Type} [Field K] [LinearOrder K] [IsStrictOrderedRing K] [FloorRing K]

theorem fpKind_back (excl : Bool) (de dr u : K) (hr : 0 ≤ dr) : fpKind excl de dr u = .back ↔ IsElastic excl de u := by
  unfold fpKind IsElastic
  cases excl
  · simp only [Bool.false_eq_true, if_false]
    constructor
    · intro h
      by_contra hc
      rw [if_neg hc] at h
      split at h <;> cases h
    · intro h
      rw [if_neg (by linarith), if_pos h]
  · simp only [if_true]
    constructor
    · intro h
      by_contra hc
      rw [if_pos (not_le.1 hc)] at h
      cases h
    · intro h
      rw [if_neg (not_lt.2 h)]

theorem fpKind_rediff (excl : Bool) (de dr u : K) : fpKind excl de dr u = .rediff ↔ IsRediffused excl de dr u := by
  unfold fpKind IsRediffused
  cases excl
  · simp only [Bool.false_eq_true, if_false, true_and]
    constructor
    · intro h
      split at h
      · cases h
      · next h1 =>
        split at h
        · cases h
        · next h2 => exact ⟨not_lt.1 h2, not_lt.1 h1⟩
    · rintro ⟨h1, h2⟩
      rw [if_neg (not_lt.2 h2), if_neg (not_lt.2 h1)]
  · simp only [if_true]
    constructor
    · intro h
      split at h <;> cases h
    · rintro ⟨h, -⟩
      cases h

theorem fpKind_true (excl : Bool) (de dr u : K) : fpKind excl de dr u = .true' ↔ IsTrueEvent excl de dr u := by
  unfold fpKind IsTrueEvent
  cases excl
  · simp only [Bool.false_eq_true, if_false]
    constructor
    · intro h
      by_contra hc
      rw [if_neg hc] at h
      split at h <;> cases h
    · intro h
      rw [if_pos h]
  · simp only [if_true]
    constructor
    · intro h
      by_contra hc
      rw [if_neg hc] at h
      cases h
    · intro h
      rw [if_pos h]

/-- a sum over the events of one kind, by the number of the event -/
theorem kind_sum (evs : List (FPEvent K)) (N : ℕ) (kd : ℕ → FPKind) (hk : evs.map (fun e => e.kind) = (List.range N).map kd) (f : FPEvent K → K)
    (k : FPKind) : ((evs.filter (fun e => decide (e.kind = k))).map f).sum =
      (((List.range N).filter (fun j => decide (kd j = k))).map (fun j => (evs.map f).getD j 0)).sum := by
  have hlen : evs.length = N := by simpa using congrArg List.length hk
  have hsum : ∀ {α : Type} (l : List α) (p : α → Bool) (g : α → K), ((l.filter p).map g).sum = (l.map (fun a => if p a then g a else 0)).sum := by
    intro α l p g
    induction l with
    | nil => rfl
    | cons a l ih => cases hp : p a <;> simp [hp, ih]
  rw [hsum, hsum]
  congr 1
  refine List.ext_getElem (by simp [hlen]) fun i h1 h2 => ?_
  have hi : i < evs.length := by simpa using h1
  have hkk : evs[i].kind = kd i := by
    have := congrArg (fun l => l[i]?) hk
    simpa [hi, hlen ▸ hi] using this
  simp only [List.getElem_map, List.getElem_range, hkk]
  congr 1
  rw [List.getD_eq_getElem _ _ (by simpa using hi), List.getElem_map]

/-- C183, one point of the curves: the elastic and rediffused entries are the shares of the draws that decide so, the entry of the true
secondaries is the charge emitted by the other impacts, the entry of the absorbed is zero, per impact; together they are the charge of
the emitted macroparticles. -/
theorem C183_point (c : FPCfg) (g : FPGens K) (hg : g.Ok) (yields : Impact K → K × K) (u : ℕ → K) (first : ℕ → ℕ) (draws : ℕ → ℕ → ℕ)
    (i : Impact K) (hi : i.nel = 1) (N : ℕ) (hN : 0 < N) (hr : 0 ≤ (yields i).2) (out : SeyOut K) (codes : List ℕ)
    (h : seyFPModel c g yields u first draws (List.replicate N i) = .ok (out, codes)) :
    let curve := typeCurve (List.replicate N i) out.nelEmit codes
    curve 0 * N = ((List.range N).filter (fun j => decide (IsElastic c.excludeRediffused (yields i).1 (u j)))).length ∧
    curve 1 * N = (((List.range N).filter (fun j => decide (IsTrueEvent c.excludeRediffused (yields i).1 (yields i).2 (u j)))).map
      (fun j => out.nelEmit.getD j 0)).sum ∧
    curve 2 * N = ((List.range N).filter (fun j => decide (IsRediffused c.excludeRediffused (yields i).1 (yields i).2 (u j)))).length ∧
    curve 3 = 0 ∧
    (curve 0 + curve 1 + curve 2 + curve 3) * N = (out.replace.map (fun e => e.nel)).sum + (out.new.map (fun e => e.nel)).sum ∧
    out.nelEmit.length = N ∧ ∀ v ∈ out.nelEmit, ∃ n : ℕ, v = n ∧ n ≤ max 1 c.mCut := by
  intro curve
  have hN0 : (N : K) ≠ 0 := by exact_mod_cast hN.ne'
  obtain ⟨evs, e1, e2, e3, e4, e5⟩ := seyFPModel_events c g yields u first draws _ _ h
  have hch := (C18_furman_pivi_model c g hg yields u first draws _ out codes h).charge
  have hout : out.nelEmit = evs.map (fun e => e.imp.nel * (e.nEmit : K)) ∧ codes = evs.map (FPEvent.code c.excludeRediffused) := by
    unfold seyFP at e5
    split at e5
    · cases e5
    · cases e5
      exact ⟨rfl, rfl⟩
  obtain ⟨o1, o2⟩ := hout
  have hlen : evs.length = N := by simpa using congrArg List.length e1
  have himp : ∀ e ∈ evs, e.imp.nel = 1 := by
    intro e he
    have : e.imp ∈ List.replicate N i := by rw [← e1]; exact List.mem_map_of_mem he
    rw [(List.mem_replicate.1 this).2, hi]
  have hkind : evs.map (fun e => e.kind) = (List.range N).map (fun j => fpKind c.excludeRediffused (yields i).1 (yields i).2 (u j)) := by
    rw [e3]
    refine List.ext_getElem (by simp) fun j h1 h2 => ?_
    simp
  have hred : ∀ e ∈ evs, c.excludeRediffused = true → e.kind ≠ .rediff := by
    intro e he hx hk
    have : e.kind ∈ evs.map (fun e => e.kind) := List.mem_map_of_mem he
    rw [hkind] at this
    obtain ⟨j, -, hj⟩ := List.mem_map.1 this
    rw [hk, fpKind_rediff, hx] at hj
    exact absurd hj.1 (by decide)
  have hcurve : ∀ ty, curve ty * N = ((evs.filter (fun e => e.code c.excludeRediffused == ty)).map (fun e => e.imp.nel * (e.nEmit : K))).sum := by
    intro ty
    show typeCurve _ _ _ _ * (N : K) = _
    unfold typeCurve
    rw [o1, o2, List.map_map, List.map_replicate, hi, List.sum_replicate, nsmul_eq_mul, mul_one, div_mul_cancel₀ _ hN0]
    rw [← maskSel_map_filter]
    rfl
  have hcode : ∀ e ∈ evs, (e.code c.excludeRediffused = 0 ↔ e.kind = .back) ∧ (e.code c.excludeRediffused = 2 ↔ e.kind = .rediff) ∧
      (e.code c.excludeRediffused = 1 ↔ (e.kind = .true' ∧ e.n ≠ 0)) ∧ (e.code c.excludeRediffused = 3 ↔ (e.kind = .true' ∧ e.n = 0)) := by
    intro e he
    have hr' := hred e he
    unfold FPEvent.code FPEvent.nEmit
    cases hx : c.excludeRediffused <;> cases hk : e.kind <;> rcases Nat.eq_zero_or_pos e.n with h0 | h0
    all_goals first
      | exact absurd hk (hr' hx)
      | (simp [h0]; done)
      | (simp [h0.ne']; done)
      | (simp [h0, h0.ne']; done)
  have hback : ∀ e ∈ evs, e.kind ≠ .true' → e.imp.nel * (e.nEmit : K) = 1 := by
    intro e he hk
    rw [himp e he]
    unfold FPEvent.nEmit
    rw [if_neg hk]
    simp
  have hcount : ∀ k : FPKind, k ≠ .true' → ((evs.filter (fun e => decide (e.kind = k))).map (fun e => e.imp.nel * (e.nEmit : K))).sum =
      ((List.range N).filter (fun j => decide (fpKind c.excludeRediffused (yields i).1 (yields i).2 (u j) = k))).length := by
    intro k hk
    have l1 : (evs.filter (fun e => decide (e.kind = k))).length =
        ((List.range N).filter (fun j => decide (fpKind c.excludeRediffused (yields i).1 (yields i).2 (u j) = k))).length := by
      have q1 : (evs.filter (fun e => decide (e.kind = k))).length = ((evs.map (fun e => e.kind)).filter (fun x => decide (x = k))).length := by
        rw [List.filter_map, List.length_map]
        rfl
      rw [q1, hkind, List.filter_map, List.length_map]
      rfl
    rw [← l1]
    have : (evs.filter (fun e => decide (e.kind = k))).map (fun e => e.imp.nel * (e.nEmit : K)) =
        List.replicate (evs.filter (fun e => decide (e.kind = k))).length (1 : K) := by
      refine List.eq_replicate_iff.2 ⟨by simp, fun v hv => ?_⟩
      obtain ⟨e, he, rfl⟩ := List.mem_map.1 hv
      rw [List.mem_filter] at he
      exact hback e he.1 (by have := of_decide_eq_true he.2; rw [this]; exact hk)
    rw [this, List.sum_replicate, nsmul_eq_mul, mul_one]
  have c0 : curve 0 * N = ((List.range N).filter (fun j => decide (IsElastic c.excludeRediffused (yields i).1 (u j)))).length := by
    rw [hcurve 0, List.filter_congr (q := fun e => decide (e.kind = .back)) (fun e he => by
      rw [beq_eq_decide]; exact decide_eq_decide.2 (hcode e he).1), hcount _ (by decide)]
    congr 2
    exact List.filter_congr fun j _ => decide_eq_decide.2 (fpKind_back _ _ _ _ hr)
  have c2 : curve 2 * N = ((List.range N).filter (fun j => decide (IsRediffused c.excludeRediffused (yields i).1 (yields i).2 (u j)))).length := by
    rw [hcurve 2, List.filter_congr (q := fun e => decide (e.kind = .rediff)) (fun e he => by
      rw [beq_eq_decide]; exact decide_eq_decide.2 (hcode e he).2.1), hcount _ (by decide)]
    congr 2
    exact List.filter_congr fun j _ => decide_eq_decide.2 (fpKind_rediff _ _ _ _)
  have c1' : curve 1 * N = ((evs.filter (fun e => decide (e.kind = .true'))).map (fun e => e.imp.nel * (e.nEmit : K))).sum := by
    rw [hcurve 1]
    clear hcurve hcount c0 c2 hch hkind e3 e5 o1 o2 hlen e1 h
    induction evs with
    | nil => rfl
    | cons e l ih =>
      have ih := ih (fun x hx => e2 x (List.mem_cons_of_mem _ hx)) (fun x hx => e4 x (List.mem_cons_of_mem _ hx))
        (fun x hx => himp x (List.mem_cons_of_mem _ hx)) (fun x hx => hred x (List.mem_cons_of_mem _ hx))
        (fun x hx => hcode x (List.mem_cons_of_mem _ hx)) (fun x hx => hback x (List.mem_cons_of_mem _ hx))
      have hc := (hcode e (List.mem_cons_self ..)).2.2.1
      by_cases hk : e.kind = .true'
      · by_cases hn : e.n = 0
        · have : (e.code c.excludeRediffused == 1) = false := by
            rw [beq_eq_false_iff_ne]
            exact fun hh => (hc.1 hh).2 hn
          rw [List.filter_cons_of_neg (by rw [this]; simp), List.filter_cons_of_pos (by simp [hk]), List.map_cons, List.sum_cons, ih]
          simp [FPEvent.nEmit, hk, hn]
        · rw [List.filter_cons_of_pos (by simpa using hc.2 ⟨hk, hn⟩), List.filter_cons_of_pos (by simp [hk]), List.map_cons, List.map_cons,
            List.sum_cons, List.sum_cons, ih]
      · have : (e.code c.excludeRediffused == 1) = false := by
          rw [beq_eq_false_iff_ne]
          exact fun hh => hk (hc.1 hh).1
        rw [List.filter_cons_of_neg (by rw [this]; simp), List.filter_cons_of_neg (by simp [hk]), ih]
  have c3 : curve 3 = 0 := by
    have : curve 3 * N = 0 := by
      rw [hcurve 3]
      refine List.sum_eq_zero fun v hv => ?_
      obtain ⟨e, he, rfl⟩ := List.mem_map.1 hv
      rw [List.mem_filter] at he
      obtain ⟨h1, h2⟩ := (hcode e he.1).2.2.2.1 (by simpa using he.2)
      simp [FPEvent.nEmit, h1, h2]
    exact (mul_eq_zero.1 this).resolve_right hN0
  have c1 : curve 1 * N = (((List.range N).filter (fun j => decide (IsTrueEvent c.excludeRediffused (yields i).1 (yields i).2 (u j)))).map
      (fun j => out.nelEmit.getD j 0)).sum := by
    rw [c1', kind_sum evs N _ hkind, o1]
    congr 2
    exact List.filter_congr fun j _ => decide_eq_decide.2 (fpKind_true _ _ _ _)
  refine ⟨c0, c1, c2, c3, ?_, by rw [o1]; simpa using hlen, ?_⟩
  · rw [← hch, o1, c3, add_zero, add_mul, add_mul, c1', hcurve 0, hcurve 2,
      List.filter_congr (q := fun e => decide (e.kind = .back)) (fun e he => by rw [beq_eq_decide]; exact decide_eq_decide.2 (hcode e he).1),
      List.filter_congr (p := fun e : FPEvent K => e.code c.excludeRediffused == 2) (q := fun e : FPEvent K => decide (e.kind = .rediff)) (fun e he => by
        rw [beq_eq_decide]; exact decide_eq_decide.2 (hcode e he).2.1)]
    clear hcurve hcount c0 c1 c1' c2 c3 hch hkind e1 e2 e3 e4 e5 o1 o2 hlen h himp hred hcode hback
    induction evs with
    | nil => simp
    | cons e l ih =>
      rw [List.map_cons, List.sum_cons, ← ih]
      cases hk : e.kind <;> simp [List.filter_cons, hk] <;> ring
  · intro v hv
    rw [o1] at hv
    obtain ⟨e, he, rfl⟩ := List.mem_map.1 hv
    refine ⟨e.nEmit, by rw [himp e he, one_mul], ?_⟩
    unfold FPEvent.nEmit
    split
    · exact (e4 e he).trans (le_max_right _ _)
    · exact le_max_left _ _

/-- C183: the curves extracted at start-up have one point for every angle and energy, in the order of the loops; at each of them the
entries are those of `C183_point`, for the draws of this call. -/
theorem C183_curves (c : FPCfg) (g : ℕ → FPGens K) (hg : ∀ n, (g n).Ok) (yields : Impact K → K × K) (u : ℕ → ℕ → K) (first : ℕ → ℕ → ℕ)
    (draws : ℕ → ℕ → ℕ → ℕ) (mk : K → K → Impact K) (hmk : ∀ e ct, (mk e ct).nel = 1) (hr : ∀ i, 0 ≤ (yields i).2) (N : ℕ) (hN : 0 < N)
    (cts enes : List K) (r : List (List K))
    (h : extractTypes (fun n => seyFPModel c (g n) yields (u n) (first n) (draws n)) mk N [0, 1, 2, 3] 0 (sweep cts enes) = .ok r) :
    r.length = (sweep cts enes).length ∧ ∀ (k : ℕ) (ct e : K), (sweep cts enes)[k]? = some (ct, e) →
      ∃ (el tr rd : K) (out : SeyOut K) (codes : List ℕ), r[k]? = some [el, tr, rd, 0] ∧
        seyFPModel c (g k) yields (u k) (first k) (draws k) (List.replicate N (mk e ct)) = .ok (out, codes) ∧
        el * N = ((List.range N).filter (fun j => decide (IsElastic c.excludeRediffused (yields (mk e ct)).1 (u k j)))).length ∧
        tr * N = (((List.range N).filter (fun j => decide (IsTrueEvent c.excludeRediffused (yields (mk e ct)).1 (yields (mk e ct)).2 (u k j)))).map
          (fun j => out.nelEmit.getD j 0)).sum ∧
        rd * N = ((List.range N).filter (fun j =>
          decide (IsRediffused c.excludeRediffused (yields (mk e ct)).1 (yields (mk e ct)).2 (u k j)))).length ∧
        (el + tr + rd) * N = (out.replace.map (fun e => e.nel)).sum + (out.new.map (fun e => e.nel)).sum := by
  have key : ∀ (l : List (K × K)) (n : ℕ) (r : List (List K)),
      extractTypes (fun n => seyFPModel c (g n) yields (u n) (first n) (draws n)) mk N [0, 1, 2, 3] n l = .ok r →
      r.length = l.length ∧ ∀ (k : ℕ) (ct e : K), l[k]? = some (ct, e) → ∃ (out : SeyOut K) (codes : List ℕ),
        r[k]? = some ([0, 1, 2, 3].map (typeCurve (List.replicate N (mk e ct)) out.nelEmit codes)) ∧
        seyFPModel c (g (n + k)) yields (u (n + k)) (first (n + k)) (draws (n + k)) (List.replicate N (mk e ct)) = .ok (out, codes) := by
    intro l
    induction l with
    | nil =>
      intro n r h
      cases h
      exact ⟨rfl, fun k ct e h => by simp at h⟩
    | cons p l ih =>
      intro n r h
      obtain ⟨ct0, e0⟩ := p
      unfold extractTypes at h
      split at h
      · cases h
      next q hq =>
      split at h
      · cases h
      next q' hq' =>
      cases h
      obtain ⟨h1, h2⟩ := ih (n + 1) q' hq'
      refine ⟨by simp [h1], fun k ct e hk => ?_⟩
      cases k with
      | zero =>
        simp only [List.getElem?_cons_zero, Option.some.injEq, Prod.mk.injEq] at hk
        obtain ⟨rfl, rfl⟩ := hk
        exact ⟨q.1, q.2, by simp, hq⟩
      | succ k =>
        obtain ⟨out, codes, k1, k2⟩ := h2 k ct e (by simpa using hk)
        rw [show n + 1 + k = n + (k + 1) by omega] at k2
        exact ⟨out, codes, by simpa using k1, k2⟩
  obtain ⟨h1, h2⟩ := key _ 0 r h
  refine ⟨h1, fun k ct e hk => ?_⟩
  obtain ⟨out, codes, k1, k2⟩ := h2 k ct e hk
  rw [zero_add] at k2
  obtain ⟨c0, c1, c2, c3, c4, -, -⟩ := C183_point c (g k) (hg k) yields (u k) (first k) (draws k) (mk e ct) (hmk e ct) N hN (hr _) out codes k2
  refine ⟨_, _, _, out, codes, ?_, k2, c0, c1, c2, ?_⟩
  · rw [k1, List.map_cons, List.map_cons, List.map_cons, List.map_cons, List.map_nil, c3]
  · rw [c3, add_zero] at c4
    exact c4

/-- four impacts at each of two energies and one angle: an elastic one, a rediffused one, one with three true secondaries and one that
is absorbed -/
example : ∃ r, extractTypes (fun _ => seyFPModel ⟨10, false, false, false⟩ exGens (fun _ => ((1 / 4 : ℚ), 1 / 4))
      (fun j => ((j : ℚ) + 1 / 2) / 4) (fun j => if j = 0 then 3 else 0) (fun _ _ => 0)) (fun e ct => { exImp 1 e with cth := ct }) 4 [0, 1, 2, 3] 0
      (sweep [1] [5, 7]) = .ok r ∧ r = [[1 / 4, 3 / 4, 1 / 4, 0], [1 / 4, 3 / 4, 1 / 4, 0]] :=
  exists_ok (by decide +kernel)

/-- the histogram of a list of macroparticles -/
theorem extractHist_ok (sq : K → K) (ke dE : K) (hke : 0 ≤ ke) (hd : 0 < dE) (n : ℕ) (hn : 2 ≤ n) (L : List (Emit K)) :
    ∃ h, computeHist 0 dE (List.replicate n 0) (L.map (fun e => (e.energy sq ke, (1 : K)))) = .ok h ∧ h.length = n ∧
      (∀ k < n, h.getD k 0 = binned 0 dE n (L.map (fun e => (e.energy sq ke, 1))) k) ∧ h.sum = (L.length : K) := by
  obtain ⟨h, hh⟩ := computeHist_ok 0 dE hd (List.replicate n (0 : K)) (by simp; omega) (L.map (fun e => (e.energy sq ke, 1)))
    (by
      intro p hp
      obtain ⟨e, -, rfl⟩ := List.mem_map.1 hp
      unfold Emit.energy
      dsimp only
      rw [mul_assoc]
      exact mul_nonneg hke (mul_self_nonneg _))
  refine ⟨h, hh, by simpa using computeHist_length _ _ _ _ _ hh, ?_, ?_⟩
  · intro k hk
    have := computeHist_getD _ _ _ _ _ hh k (by simpa using hk)
    rw [this, List.length_replicate]
    have h0 : (List.replicate n (0 : K)).getD k 0 = 0 := by simp [List.getD, hk]
    rw [h0, zero_add]
    rfl
  · rw [computeHist_sum _ _ _ _ _ hh, List.map_map]
    have h1 : ∀ l : List (Emit K), (l.map ((fun p : K × K => p.2) ∘ fun e => (e.energy sq ke, (1 : K)))).sum = (l.length : K) := by
      intro l
      induction l with
      | nil => simp
      | cons a l ih =>
        simp only [List.map_cons, List.sum_cons, ih, List.length_cons]
        simp
        ring
    rw [h1]
    simp

theorem npRepeat_true_codes (excl : Bool) (evs : List (FPEvent K)) (h : ∀ e ∈ evs, e.Ok) :
    npRepeat (evs.map (FPEvent.code excl)) (evs.map FPEvent.nAdd) = List.replicate ((evs.map FPEvent.nAdd).sum) 1 := by
  induction evs with
  | nil => rfl
  | cons e evs ih =>
    simp only [List.map_cons, npRepeat, ih (fun x hx => h x (List.mem_cons_of_mem _ hx)), List.sum_cons, List.replicate_add]
    congr 1
    rcases Nat.eq_zero_or_pos e.nAdd with h0 | h0
    · rw [h0]; rfl
    · have hn : e.n ≠ 0 := by unfold FPEvent.nAdd at h0; omega
      have hk : e.kind = .true' := by
        by_contra hk
        exact hn (h e (List.mem_cons_self ..) hk)
      have : e.code excl = 1 := by
        unfold FPEvent.code FPEvent.nEmit
        cases excl <;> simp [hk, hn]
      rw [this]

/-- absorbed macroparticles have energy zero -/
theorem absorbed_energy (c : FPCfg) (g : FPGens K) (evs : List (FPEvent K)) (out : SeyOut K) (codes : List ℕ)
    (h : seyFP c g evs = .ok (out, codes)) (hrl : out.replace.length = evs.length) (sq : K → K) (h0 : sq 0 = 0) (ke : K) :
    (maskSel out.replace (evs.map (fun e => decide (e.kind = .true') && decide (e.n = 0)))).map (fun e => (e.energy sq ke, (1 : K))) =
      List.replicate (evs.filter (fun e => decide (e.kind = .true') && decide (e.n = 0))).length ((0 : K), 1) := by
  have hcase : (∃ rep, out.replace = fpKill evs rep) ∨ ∀ e ∈ evs, e.kind ≠ .true' := by
    unfold seyFP at h
    split at h
    · cases h
    next q hq =>
    cases h
    unfold fpTrue at hq
    dsimp only at hq
    split at hq
    · left
      split at hq
      · cases hq
      split at hq
      · cases hq
        exact ⟨_, rfl⟩
      split at hq
      · cases hq
      split at hq
      · cases hq
      cases hq
      exact ⟨_, rfl⟩
    · next hno =>
      right
      intro e he hk
      exact hno (List.any_eq_true.2 ⟨e, he, by simp [hk]⟩)
  rcases hcase with ⟨rep, hrep⟩ | hno
  · have hlen : evs.length ≤ rep.length := by
      rw [hrep] at hrl
      unfold fpKill at hrl
      rw [List.length_map, List.length_zip] at hrl
      omega
    rw [hrep]
    unfold fpKill
    clear hrep hrl h
    induction evs generalizing rep with
    | nil => rfl
    | cons e l ih =>
      cases rep with
      | nil => simp at hlen
      | cons a rep =>
        have := ih rep (by simpa using hlen)
        cases hd : (decide (e.kind = .true') && decide (e.n = 0))
        · simp only [List.zip_cons_cons, List.map_cons, hd, maskSel, List.filter_cons, Bool.false_eq_true, if_false]
          exact this
        · have hdd : e.dead = true := hd
          simp only [List.zip_cons_cons, List.map_cons, hd, maskSel, List.filter_cons, if_true, List.length_cons, List.replicate_succ, hdd]
          rw [this]
          congr 2
          unfold Emit.energy Emit.kill
          dsimp only
          rw [show (0 : K) ^ 2 + 0 ^ 2 + 0 ^ 2 = 0 by ring, h0]
          ring
  · have e1 : evs.filter (fun e => decide (e.kind = .true') && decide (e.n = 0)) = [] := by
      rw [List.filter_eq_nil_iff]
      intro e he
      simp [hno e he]
    have e2 : evs.map (fun e => decide (e.kind = .true') && decide (e.n = 0)) = List.replicate out.replace.length false := by
      rw [hrl]
      refine List.eq_replicate_iff.2 ⟨by simp, fun b hb => ?_⟩
      obtain ⟨e, he, rfl⟩ := List.mem_map.1 hb
      simp [hno e he]
    rw [e1, e2, maskSel_const]
    rfl

/-- C183, energy distributions: every emitted macroparticle enters exactly one of the four histograms once, with its kinetic energy. The
one that replaces the impact enters the histogram of its event, the added ones that of the true secondaries; the absorbed ones
have energy zero. -/
theorem C183_distribution (c : FPCfg) (g : FPGens K) (hg : g.Ok) (evs : List (FPEvent K)) (hev : ∀ e ∈ evs, e.Ok)
    (hx : c.excludeRediffused = true → ∀ e ∈ evs, e.kind ≠ .rediff) (out : SeyOut K) (codes : List ℕ) (h : seyFP c g evs = .ok (out, codes))
    (sq : K → K) (h0 : sq 0 = 0) (ke ene factor : K) (hke : 0 ≤ ke) (hf : 0 < ene * factor) (n : ℕ) (hn : 2 ≤ n) :
    ∃ hist : ℕ → List K, (∀ ty, extractEneType sq ke ene factor n out (fpTypes c.excludeRediffused evs) ty = .ok (hist ty) ∧ (hist ty).length = n) ∧
      (∀ (ty : ℕ) (kind : FPKind), (ty, kind) ∈ [(0, FPKind.back), (2, FPKind.rediff)] → ∀ k < n, (hist ty).getD k 0 =
        binned 0 (ene * factor / ((n : K) - 1)) n
          ((maskSel out.replace (evs.map (fun e => decide (e.kind = kind)))).map (fun e => (e.energy sq ke, 1))) k) ∧
      (∀ k < n, (hist 1).getD k 0 = binned 0 (ene * factor / ((n : K) - 1)) n
        ((maskSel out.replace (evs.map (fun e => decide (e.kind = .true') && decide (0 < e.n))) ++ out.new).map (fun e => (e.energy sq ke, 1))) k) ∧
      (∀ k < n, (hist 3).getD k 0 = binned 0 (ene * factor / ((n : K) - 1)) n
        (List.replicate (evs.filter (fun e => decide (e.kind = .true') && decide (e.n = 0))).length ((0 : K), 1)) k) ∧
      (hist 0).sum + (hist 1).sum + (hist 2).sum + (hist 3).sum = ((out.replace.length + out.new.length : ℕ) : K) := by
  have ho := seyFP_out c g hg evs hev _ h
  dsimp only at ho
  have hrl : out.replace.length = evs.length := by simpa using congrArg List.length ho.still
  have hnl : out.new.length = (evs.map FPEvent.nAdd).sum := by
    have := congrArg List.length ho.newStill
    rw [npRepeat_length _ _ (by simp)] at this
    simpa using this
  have hn1 : (0 : K) < (n : K) - 1 := by
    have : (2 : K) ≤ (n : K) := by exact_mod_cast hn
    linarith
  have hdE : 0 < ene * factor / ((n : K) - 1) := div_pos hf hn1
  have hsel : ∀ ty : ℕ, maskSel (out.replace ++ out.new) ((fpTypes c.excludeRediffused evs).map (fun t => t == ty))
      = maskSel out.replace (evs.map (fun e => e.code c.excludeRediffused == ty)) ++ (if ty = 1 then out.new else []) := by
    intro ty
    unfold fpTypes
    rw [npRepeat_true_codes _ _ hev, List.map_append, maskSel_append _ _ _ _ (by simp [hrl]), List.map_replicate, ← hnl, maskSel_const, List.map_map]
    congr 1
    by_cases ht : ty = 1
    · subst ht; simp
    · rw [if_neg ht, if_neg (by simpa using fun hh => ht hh.symm)]
  have hrun : ∀ ty : ℕ, ∃ hi, extractEneType sq ke ene factor n out (fpTypes c.excludeRediffused evs) ty = .ok hi ∧ hi.length = n ∧
      (∀ k < n, hi.getD k 0 = binned 0 (ene * factor / ((n : K) - 1)) n
        ((maskSel out.replace (evs.map (fun e => e.code c.excludeRediffused == ty)) ++ (if ty = 1 then out.new else [])).map
          (fun e => (e.energy sq ke, 1))) k) ∧
      hi.sum = ((maskSel out.replace (evs.map (fun e => e.code c.excludeRediffused == ty)) ++ (if ty = 1 then out.new else [])).length : K) := by
    intro ty
    obtain ⟨hi, q1, q2, q3, q4⟩ := extractHist_ok sq ke _ hke hdE n hn
      (maskSel out.replace (evs.map (fun e => e.code c.excludeRediffused == ty)) ++ (if ty = 1 then out.new else []))
    refine ⟨hi, ?_, q2, q3, q4⟩
    unfold extractEneType extractStep
    rw [if_neg (by omega), hsel, ← q1]
    dsimp only
    split
    · next hnil => rw [hnil]; rfl
    · next p l hl => rw [hl]
  choose hist r1 r2 r3 r4 using hrun
  have hcode : ∀ e ∈ evs, (e.code c.excludeRediffused == 0) = decide (e.kind = .back) ∧ (e.code c.excludeRediffused == 2) = decide (e.kind = .rediff) ∧
      (e.code c.excludeRediffused == 1) = (decide (e.kind = .true') && decide (0 < e.n)) ∧
      (e.code c.excludeRediffused == 3) = (decide (e.kind = .true') && decide (e.n = 0)) := by
    intro e he
    have hr' := fun h => hx h e he
    unfold FPEvent.code FPEvent.nEmit
    cases hxx : c.excludeRediffused <;> cases hk : e.kind <;> rcases Nat.eq_zero_or_pos e.n with h0 | h0
    all_goals first
      | exact absurd hk (hr' hxx)
      | (simp [h0]; done)
      | (simp [h0.ne']; done)
      | (simp [h0, h0.ne']; done)
  refine ⟨hist, fun ty => ⟨r1 ty, r2 ty⟩, ?_, ?_, ?_, ?_⟩
  · intro ty kind hmem k hk
    rw [r3 ty k hk]
    rcases List.mem_cons.1 hmem with hm | hm
    · cases hm
      rw [if_neg (by decide), List.append_nil, List.map_congr_left (fun e he => (hcode e he).1)]
    · rw [List.mem_singleton] at hm
      cases hm
      rw [if_neg (by decide), List.append_nil, List.map_congr_left (fun e he => (hcode e he).2.1)]
  · intro k hk
    rw [r3 1 k hk, if_pos rfl, List.map_congr_left (fun e he => (hcode e he).2.2.1)]
  · intro k hk
    rw [r3 3 k hk, if_neg (by decide), List.append_nil, List.map_congr_left (fun e he => (hcode e he).2.2.2)]
    congr 1
    exact absorbed_energy c g evs out codes h hrl sq h0 ke
  · rw [r4, r4, r4, r4, ← Nat.cast_add, ← Nat.cast_add, ← Nat.cast_add]
    congr 1
    simp only [List.length_append, if_true, if_neg (by decide : ¬ (0 : ℕ) = 1), if_neg (by decide : ¬ (2 : ℕ) = 1), if_neg (by decide : ¬ (3 : ℕ) = 1),
      List.length_nil, add_zero]
    have hsplit : ∀ (l : List (Emit K)) (v : List (FPEvent K)), (∀ e ∈ v, e ∈ evs) → l.length = v.length →
        (maskSel l (v.map (fun e => e.code c.excludeRediffused == 0))).length + (maskSel l (v.map (fun e => e.code c.excludeRediffused == 1))).length +
          (maskSel l (v.map (fun e => e.code c.excludeRediffused == 2))).length + (maskSel l (v.map (fun e => e.code c.excludeRediffused == 3))).length =
          l.length := by
      intro l
      induction l with
      | nil => intro v _ _; simp
      | cons a l ih =>
        intro v hv hlv
        cases v with
        | nil => simp at hlv
        | cons e v =>
          have := ih v (fun x hx => hv x (List.mem_cons_of_mem _ hx)) (by simpa using hlv)
          have hc : e.code c.excludeRediffused = 0 ∨ e.code c.excludeRediffused = 1 ∨ e.code c.excludeRediffused = 2 ∨ e.code c.excludeRediffused = 3 := by
            obtain ⟨a1, a2, a3, a4⟩ := hcode e (hv e (List.mem_cons_self ..))
            cases hk : e.kind
            · left; simpa [hk] using a1
            · right; right; left; simpa [hk] using a2
            · rcases Nat.eq_zero_or_pos e.n with h0 | h0
              · right; right; right; simpa [hk, h0] using a4
              · right; left; simpa [hk, h0] using a3
          rcases hc with hc | hc | hc | hc <;> simp [maskSel, hc] <;> omega
    have := hsplit out.replace evs (fun _ h => h) hrl
    omega

/-- an elastic event, a rediffused one, one with three true secondaries and one absorbed: one, three, one and one macroparticle -/
example : ∃ r, seyFP ⟨10, false, false, false⟩ exGens [⟨exImp 1 5, .back, 0⟩, ⟨exImp 1 2, .rediff, 0⟩, ⟨exImp 1 4, .true', 3⟩, ⟨exImp 1 5, .true', 0⟩] = .ok r ∧
    [0, 1, 2, 3].map (fun ty => (extractEneType (fun x => x) (1 / 1000 : ℚ) 5 2 6 r.1
      (fpTypes false [⟨exImp 1 5, .back, 0⟩, ⟨exImp 1 2, .rediff, 0⟩, ⟨exImp 1 4, .true', 3⟩, ⟨exImp 1 5, .true', 0⟩]) ty).map List.sum)
      = [.ok 1, .ok 3, .ok 1, .ok 1] :=
  exists_ok (by decide +kernel)

end PyECLOUD
