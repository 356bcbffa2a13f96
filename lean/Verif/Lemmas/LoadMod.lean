import Verif.Spec.LoadMod

/-! # Lemmas on the loading of input files -/

namespace PyECLOUD

variable {M : Type} (ext : String → Option String) (py : String → Except LoadErr M)

/-- What holds of the file system while a call is under way alone in its process. -/
def LoadGood (fs : TmpFs) (t : LoadTask M) : Prop :=
  match t.pc with
  | .test => True
  | .mkdir => fs.dirs t.pid = false
  | .copy => fs.dirs t.pid = true
  | .read => fs.dirs t.pid = true ∧ ∃ c, ext t.src = some c ∧ fs.files t.pid t.tag = some c
  | .write c => fs.dirs t.pid = true ∧ ext t.src = some c
  | .exec => fs.dirs t.pid = true ∧ ∃ c, ext t.src = some c ∧ fs.files t.pid t.tag = some (piHeader ++ c)
  | .clean r => fs.dirs t.pid = true ∧ r = loadWanted ext py t.src
  | .done r => r = loadWanted ext py t.src

/-- the directory of a process does not exist, nor any file in it -/
def TmpFs.Gone (fs : TmpFs) (p : ℕ) : Prop := fs.dirs p = false ∧ ∀ n, fs.files p n = none

theorem TmpFs.put_some (fs : TmpFs) (p : ℕ) (tag c : String) (h : fs.dirs p = true) :
    fs.put p tag c = some { fs with files := Function.update fs.files p (Function.update (fs.files p) tag (some c)) } := by
  unfold TmpFs.put; rw [if_pos h]

theorem TmpFs.put_other (fs fs' : TmpFs) (p : ℕ) (tag c : String) (h : fs.put p tag c = some fs') (q : ℕ) (hq : q ≠ p) :
    fs'.dirs q = fs.dirs q ∧ fs'.files q = fs.files q := by
  unfold TmpFs.put at h
  split at h
  · simp only [Option.some.injEq] at h
    subst h
    exact ⟨rfl, Function.update_of_ne hq _ _⟩
  · simp at h

theorem load_ids (fs : TmpFs) (t : LoadTask M) :
    (t.step ext py fs).2.pid = t.pid ∧ (t.step ext py fs).2.src = t.src ∧ (t.step ext py fs).2.tag = t.tag := by
  unfold LoadTask.step
  split
  · exact ⟨rfl, rfl, rfl⟩
  · split <;> exact ⟨rfl, rfl, rfl⟩
  · split
    · exact ⟨rfl, rfl, rfl⟩
    · split <;> exact ⟨rfl, rfl, rfl⟩
  · split <;> exact ⟨rfl, rfl, rfl⟩
  · split <;> exact ⟨rfl, rfl, rfl⟩
  · split <;> exact ⟨rfl, rfl, rfl⟩
  · split <;> exact ⟨rfl, rfl, rfl⟩
  · exact ⟨rfl, rfl, rfl⟩

theorem load_frame (fs : TmpFs) (t : LoadTask M) (q : ℕ) (hq : q ≠ t.pid) :
    (t.step ext py fs).1.dirs q = fs.dirs q ∧ (t.step ext py fs).1.files q = fs.files q := by
  unfold LoadTask.step
  split
  · exact ⟨rfl, rfl⟩
  · split
    · exact ⟨rfl, rfl⟩
    · exact ⟨Function.update_of_ne hq _ _, rfl⟩
  · split
    · exact ⟨rfl, rfl⟩
    · split
      · exact ⟨rfl, rfl⟩
      · next fs' h => exact TmpFs.put_other fs fs' _ _ _ h q hq
  · split <;> exact ⟨rfl, rfl⟩
  · split
    · exact ⟨rfl, rfl⟩
    · next fs' h => exact TmpFs.put_other fs fs' _ _ _ h q hq
  · split <;> exact ⟨rfl, rfl⟩
  · split
    · exact ⟨Function.update_of_ne hq _ _, Function.update_of_ne hq _ _⟩
    · exact ⟨rfl, rfl⟩
  · exact ⟨rfl, rfl⟩

theorem load_good (fs : TmpFs) (t : LoadTask M) (h : LoadGood ext py fs t) :
    LoadGood ext py (t.step ext py fs).1 (t.step ext py fs).2 := by
  obtain ⟨pid, tag, src, pc⟩ := t
  cases pc with
  | test =>
    by_cases hd : fs.dirs pid = true
    · simp [LoadTask.step, LoadGood, hd]
    · simp [LoadTask.step, LoadGood, hd]
  | mkdir =>
    have hd : fs.dirs pid = false := h
    simp [LoadTask.step, LoadGood, hd]
  | copy =>
    have hd : fs.dirs pid = true := h
    cases hs : ext src with
    | none => simp [LoadTask.step, LoadGood, hs, hd, loadWanted]
    | some c => simp [LoadTask.step, LoadGood, hs, TmpFs.put_some fs pid tag c hd, hd]
  | read =>
    obtain ⟨hd, c, hs, hf⟩ : fs.dirs pid = true ∧ ∃ c, ext src = some c ∧ fs.files pid tag = some c := h
    simp [LoadTask.step, LoadGood, hs, hd, hf]
  | write c =>
    obtain ⟨hd, hs⟩ : fs.dirs pid = true ∧ ext src = some c := h
    simp [LoadTask.step, LoadGood, hs, TmpFs.put_some fs pid tag _ hd, hd]
  | exec =>
    obtain ⟨hd, c, hs, hf⟩ : fs.dirs pid = true ∧ ∃ c, ext src = some c ∧ fs.files pid tag = some (piHeader ++ c) := h
    simp [LoadTask.step, LoadGood, hs, hd, hf, loadWanted, piHeader]
  | clean r =>
    obtain ⟨hd, hr⟩ : fs.dirs pid = true ∧ r = loadWanted ext py src := h
    simp [LoadTask.step, LoadGood, hd, hr]
  | done r => exact h

/-- a call that returns in this step has removed the directory -/
theorem load_gone (fs : TmpFs) (t : LoadTask M) (h : LoadGood ext py fs t) (hn : ∀ r, t.pc ≠ .done r) (r : Except LoadErr M)
    (hd : (t.step ext py fs).2.pc = .done r) : (t.step ext py fs).1.Gone t.pid := by
  obtain ⟨pid, tag, src, pc⟩ := t
  cases pc with
  | test => by_cases hd' : fs.dirs pid = true <;> simp [LoadTask.step, hd'] at hd
  | mkdir =>
    have hd' : fs.dirs pid = false := h
    simp [LoadTask.step, hd'] at hd
  | copy =>
    have hd' : fs.dirs pid = true := h
    cases hs : ext src with
    | none => simp [LoadTask.step, hs] at hd
    | some c => simp [LoadTask.step, hs, TmpFs.put_some fs pid tag c hd'] at hd
  | read =>
    obtain ⟨hd', c, hs, hf⟩ : fs.dirs pid = true ∧ ∃ c, ext src = some c ∧ fs.files pid tag = some c := h
    simp [LoadTask.step, hf] at hd
  | write c =>
    obtain ⟨hd', hs⟩ : fs.dirs pid = true ∧ ext src = some c := h
    simp [LoadTask.step, TmpFs.put_some fs pid tag _ hd'] at hd
  | exec =>
    obtain ⟨hd', c, hs, hf⟩ : fs.dirs pid = true ∧ ∃ c, ext src = some c ∧ fs.files pid tag = some (piHeader ++ c) := h
    simp [LoadTask.step, hf] at hd
  | clean r' =>
    obtain ⟨hd', hr⟩ : fs.dirs pid = true ∧ r' = loadWanted ext py src := h
    simp [LoadTask.step, hd', TmpFs.Gone]
  | done r' => exact absurd rfl (hn r')

/-- no call goes back to its beginning -/
theorem load_not_test (fs : TmpFs) (t : LoadTask M) : (t.step ext py fs).2.pc ≠ .test := by
  obtain ⟨pid, tag, src, pc⟩ := t
  unfold LoadTask.step
  cases pc with
  | test => by_cases h : fs.dirs pid = true <;> simp [h]
  | mkdir => by_cases h : fs.dirs pid = true <;> simp [h]
  | copy =>
    cases hs : ext src with
    | none => simp [hs]
    | some c => cases hp : fs.put pid tag c <;> simp [hs, hp]
  | read => cases hs : fs.files pid tag <;> simp [hs]
  | write c => cases hp : fs.put pid tag (piHeader ++ c) <;> simp [hp]
  | exec => cases hs : fs.files pid tag <;> simp [hs]
  | clean r => by_cases h : fs.dirs pid = true <;> simp [h]
  | done r => simp

/-- what holds in all states of runs without overlap -/
structure LoadInv (s0 s : LoadSt M) : Prop where
  ids : ∀ i, (s.tasks i).pid = (s0.tasks i).pid ∧ (s.tasks i).src = (s0.tasks i).src
  good : ∀ i, LoadGood ext py s.fs (s.tasks i)
  gone : ∀ i r, (s.tasks i).pc = .done r → (∃ j, (s.tasks j).pid = (s.tasks i).pid ∧ (s.tasks j).Active) ∨
    s.fs.Gone (s.tasks i).pid

/-- The condition of a call that is not under way does not depend on the file system. -/
theorem good_idle (fs fs' : TmpFs) (t : LoadTask M) (h : LoadGood ext py fs t) (hn : ¬ t.Active) : LoadGood ext py fs' t := by
  obtain ⟨pid, tag, src, pc⟩ := t
  cases pc with
  | test => trivial
  | done r => exact h
  | mkdir => exact absurd ⟨by simp, by simp⟩ hn
  | copy => exact absurd ⟨by simp, by simp⟩ hn
  | read => exact absurd ⟨by simp, by simp⟩ hn
  | write c => exact absurd ⟨by simp, by simp⟩ hn
  | exec => exact absurd ⟨by simp, by simp⟩ hn
  | clean r => exact absurd ⟨by simp, by simp⟩ hn

theorem good_frame (fs fs' : TmpFs) (t : LoadTask M) (h : LoadGood ext py fs t) (h1 : fs'.dirs t.pid = fs.dirs t.pid)
    (h2 : fs'.files t.pid = fs.files t.pid) : LoadGood ext py fs' t := by
  unfold LoadGood at h ⊢
  rw [h1, h2]; exact h

theorem inv_step (s0 s : LoadSt M) (i : ℕ) (h : LoadInv ext py s0 s)
    (hb : ∀ j, j ≠ i → (s.tasks j).pid = (s.tasks i).pid → ¬ ((s.tasks i).Active ∧ (s.tasks j).Active))
    (ha : ∀ j, j ≠ i → (s.tasks j).pid = (s.tasks i).pid → ¬ (((s.step ext py i).tasks i).Active ∧ (s.tasks j).Active)) :
    LoadInv ext py s0 (s.step ext py i) := by
  have hi : (s.step ext py i).tasks i = ((s.tasks i).step ext py s.fs).2 := by simp [LoadSt.step]
  have hj : ∀ j, j ≠ i → (s.step ext py i).tasks j = s.tasks j := fun j hj => by simp [LoadSt.step, hj]
  have hids := load_ids ext py s.fs (s.tasks i)
  by_cases hdone : ∃ r, (s.tasks i).pc = .done r
  · obtain ⟨r, hr⟩ := hdone
    have e : (s.tasks i).step ext py s.fs = (s.fs, s.tasks i) := by unfold LoadTask.step; rw [hr]
    have e2 : s.step ext py i = s := by
      unfold LoadSt.step; rw [e]; simp
    rw [e2]; exact h
  · push Not at hdone
    have quiet : ∀ j, j ≠ i → (s.tasks j).pid = (s.tasks i).pid → ¬ (s.tasks j).Active := by
      intro j hne hp hact
      by_cases ht : (s.tasks i).pc = .test
      · refine ha j hne hp ⟨?_, hact⟩
        rw [hi]
        refine ⟨load_not_test ext py _ _, fun r => ?_⟩
        unfold LoadTask.step; rw [ht]
        by_cases hd : s.fs.dirs (s.tasks i).pid = true <;> simp [hd]
      · exact hb j hne hp ⟨⟨ht, hdone⟩, hact⟩
    refine ⟨fun j => ?_, fun j => ?_, fun j r hr => ?_⟩
    · by_cases hne : j = i
      · subst hne; rw [hi, hids.1, hids.2.1]; exact h.ids _
      · rw [hj j hne]; exact h.ids j
    · by_cases hne : j = i
      · subst hne; rw [hi]; exact load_good ext py _ _ (h.good _)
      · rw [hj j hne]
        by_cases hp : (s.tasks j).pid = (s.tasks i).pid
        · exact good_idle ext py _ _ _ (h.good j) (quiet j hne hp)
        · have hf := load_frame ext py s.fs (s.tasks i) (s.tasks j).pid hp
          exact good_frame ext py _ _ _ (h.good j) hf.1 hf.2
    · by_cases hact : ((s.step ext py i).tasks i).Active ∧ ((s.step ext py i).tasks j).pid = (s.tasks i).pid
      · left; exact ⟨i, by rw [hi, hids.1, hact.2], hact.1⟩
      · by_cases hp : ((s.step ext py i).tasks j).pid = (s.tasks i).pid
        · right
          have hna : ¬ ((s.step ext py i).tasks i).Active := fun ha => hact ⟨ha, hp⟩
          rw [hp]
          have hex : ∃ r', ((s.tasks i).step ext py s.fs).2.pc = .done r' := by
            by_contra hc; push Not at hc
            exact hna ⟨by rw [hi]; exact load_not_test ext py _ _, by rw [hi]; exact hc⟩
          obtain ⟨r', hr'⟩ := hex
          exact load_gone ext py _ _ (h.good i) hdone r' hr'
        · have hne : j ≠ i := fun he => hp (by rw [he, hi, hids.1])
          rw [hj j hne] at hr hp ⊢
          rcases h.gone j r hr with ⟨l, hl, hla⟩ | hg
          · left
            have hli : l ≠ i := fun he => hp (by rw [← hl, he])
            exact ⟨l, by rw [hj l hli]; exact hl, by rw [hj l hli]; exact hla⟩
          · right
            have hf := load_frame ext py s.fs (s.tasks i) (s.tasks j).pid hp
            exact ⟨by rw [← hg.1]; exact hf.1, fun n => by rw [← hg.2 n]; exact congrFun hf.2 n⟩

theorem run_take_succ (s : LoadSt M) (sched : List ℕ) (k : ℕ) (hk : k < sched.length) :
    s.run ext py (sched.take (k + 1)) = (s.run ext py (sched.take k)).step ext py sched[k] := by
  unfold LoadSt.run
  rw [List.take_add_one, List.foldl_append, List.getElem?_eq_getElem hk]
  rfl

theorem inv_run (s : LoadSt M) (sched : List ℕ) (hf : s.Fresh) (hn : NoOverlap ext py s sched) :
    ∀ k, k ≤ sched.length → LoadInv ext py s (s.run ext py (sched.take k)) := by
  intro k
  induction k with
  | zero =>
    intro _
    refine ⟨fun i => ⟨rfl, rfl⟩, fun i => ?_, fun i r hr => ?_⟩
    · have := hf i
      change LoadGood ext py s.fs (s.tasks i)
      unfold LoadGood; rw [this]; trivial
    · have hr' : (s.tasks i).pc = .done r := hr
      rw [hf i] at hr'; cases hr'
  | succ k ih =>
    intro hk
    have hinv := ih (by omega)
    have e := run_take_succ ext py s sched k (by omega)
    have hb := hn k
    have ha := hn (k + 1)
    rw [e] at ha ⊢
    have key : ∀ j, j ≠ sched[k] → ((s.run ext py (sched.take k)).tasks j).pid = ((s.run ext py (sched.take k)).tasks sched[k]).pid →
        (s.tasks sched[k]).pid = (s.tasks j).pid := fun j _ hp => by
      rw [(hinv.ids j).1, (hinv.ids _).1] at hp; exact hp.symm
    refine inv_step ext py _ _ _ hinv (fun j hne hp => hb _ j (Ne.symm hne) (key j hne hp)) (fun j hne hp hh => ?_)
    refine ha _ j (Ne.symm hne) (key j hne hp) ⟨hh.1, ?_⟩
    have : ((s.run ext py (sched.take k)).step ext py sched[k]).tasks j = (s.run ext py (sched.take k)).tasks j := by
      simp [LoadSt.step, hne]
    rw [this]; exact hh.2

/-- how many operations a call has still to make, at most -/
def LoadPc.left : LoadPc M → ℕ
  | .test => 7
  | .mkdir => 6
  | .copy => 5
  | .read => 4
  | .write _ => 3
  | .exec => 2
  | .clean _ => 1
  | .done _ => 0

theorem load_left (fs : TmpFs) (t : LoadTask M) : (t.step ext py fs).2.pc.left ≤ t.pc.left - 1 := by
  obtain ⟨pid, tag, src, pc⟩ := t
  unfold LoadTask.step
  cases pc with
  | test => by_cases h : fs.dirs pid = true <;> simp [h, LoadPc.left]
  | mkdir => by_cases h : fs.dirs pid = true <;> simp [h, LoadPc.left]
  | copy =>
    cases hs : ext src with
    | none => simp [hs, LoadPc.left]
    | some c => cases hp : fs.put pid tag c <;> simp [hs, hp, LoadPc.left]
  | read => cases hs : fs.files pid tag <;> simp [hs, LoadPc.left]
  | write c => cases hp : fs.put pid tag (piHeader ++ c) <;> simp [hp, LoadPc.left]
  | exec => cases hs : fs.files pid tag <;> simp [hs, LoadPc.left]
  | clean r => by_cases h : fs.dirs pid = true <;> simp [h, LoadPc.left]
  | done r => simp [LoadPc.left]

theorem run_left (sched : List ℕ) : ∀ (s : LoadSt M) (i : ℕ),
    ((s.run ext py sched).tasks i).pc.left ≤ (s.tasks i).pc.left - sched.count i := by
  induction sched with
  | nil => intro s i; exact Nat.le_refl _
  | cons a l ih =>
    intro s i
    have h := ih (s.step ext py a) i
    change (((s.step ext py a).run ext py l).tasks i).pc.left ≤ _
    refine Nat.le_trans h ?_
    by_cases ha : a = i
    · subst ha
      have h2 := load_left ext py s.fs (s.tasks a)
      have h3 : (s.step ext py a).tasks a = ((s.tasks a).step ext py s.fs).2 := by simp [LoadSt.step]
      rw [h3, List.count_cons_self]; omega
    · have h3 : (s.step ext py a).tasks i = s.tasks i := by simp [LoadSt.step, Ne.symm ha]
      rw [h3, List.count_cons_of_ne ha]; exact Nat.le_refl _

end PyECLOUD
