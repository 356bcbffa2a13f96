import Verif.Model.Np

/-!
# Model of `MP_system.py` (class `MP_system`), everything except `check_for_regeneration`

Numbers live in an arbitrary ordered field `K`; random draws are streams `ℕ → K`
(entry `i` is the draw used for entry `i` of the corresponding `rand(n)` call).
The total energies computed only for printing (lines 172, 212, 234, 438) are not modelled.
-/

namespace PyECLOUD

/-- The per-particle arrays of `MP_system` (MP_system.py:75-87). `tl` is `t_last_impact`,
which exists only if `flag_lifetime_hist` is set. -/
inductive Fld where
  | x | y | z | vx | vy | vz | nel | tl
  deriving DecidableEq, Repr

/-- The arrays written unconditionally, in program order (MP_system.py:541-547 and similar blocks). -/
def Fld.main : List Fld := [.x, .y, .z, .vx, .vy, .vz, .nel]

/-- State of `MP_system` (MP_system.py:74-96): arrays of length `N_mp_max`, live count, sizes. -/
structure MPs (K : Type) where
  arr : Fld → List K
  nmp : ℕ
  ref : K
  split : K
  clTh : K
  ref0 : K
  factSplit : K
  factClean : K
  lifetime : Bool

/-- Settings of the soft and asynchronous regenerations (MP_system.py:123-133): `none` when the
corresponding flag is `False`, else (threshold, target). -/
structure RegenCfg where
  soft : Option (ℕ × ℕ)
  async : Option (ℕ × ℕ)

variable {K : Type} [Field K] [LinearOrder K]

/-- `MP_system.__init__` (MP_system.py:74-96). -/
def MPs.init (nMax : ℕ) (ref0 factSplit factClean : K) (lifetime : Bool) : MPs K where
  arr := fun f => if f = .tl then List.replicate nMax (-1) else List.replicate nMax 0
  nmp := 0
  ref := ref0
  split := factSplit * ref0
  clTh := factClean * ref0
  ref0 := ref0
  factSplit := factSplit
  factClean := factClean
  lifetime := lifetime

/-- `set_nel_mp_ref` (MP_system.py:163-166). -/
def MPs.setRef (s : MPs K) (v : K) : MPs K :=
  { s with ref := v, split := s.factSplit * v, clTh := s.factClean * v }

/-- The compaction block shared by `clean_small_MPs` (MP_system.py:142-155),
`perform_soft_regeneration` (187-200) and `check_for_regeneration` (261-271, `withTl = false`):
`N_mp = sum(keep)`, every array gets its kept entries moved to the front, the sizes beyond are
zeroed, `t_last_impact` is compacted only when `flag_lifetime_hist` is set. -/
def MPs.compact (s : MPs K) (keep : List Bool) (withTl : Bool) : MPs K :=
  { s with
    nmp := countTrue keep
    arr := fun f =>
      match f with
      | .nel => zeroTail (setPrefix (s.arr .nel) (maskSel (s.arr .nel) keep)) (countTrue keep)
      | .tl => if withTl then setPrefix (s.arr .tl) (maskSel (s.arr .tl) keep) else s.arr .tl
      | f => setPrefix (s.arr f) (maskSel (s.arr f) keep) }

/-- `flag_keep[N_mp:] = False` (MP_system.py:141, 260). -/
def clipMask (m : List Bool) (n : ℕ) : List Bool :=
  m.take n ++ List.replicate (m.length - n) false

/-- `clean_small_MPs` (MP_system.py:135-161). -/
def MPs.clean (s : MPs K) : MPs K :=
  let flagKeep := clipMask ((s.arr .nel).map (fun v => !decide (v < s.clTh))) s.nmp
  let s' := s.compact flagKeep s.lifetime
  if s'.nmp = 0 then s'.setRef s'.ref0 else s'

/-- `perform_soft_regeneration` (MP_system.py:168-213). `rand i` is entry `i` of `rand(N_mp)`.
Only `0 < target` is meaningful: for `target = 0` Python divides by zero. -/
def MPs.softRegen (s : MPs K) (target : ℕ) (rand : ℕ → K) : MPs K :=
  if s.nmp > target then
    let chrg := (s.arr .nel).sum
    let newRef := if chrg / (target : K) < s.ref0 then s.ref0 else chrg / (target : K)
    let s1 := s.setRef newRef
    let deathProb := ((s.nmp : K) - (target : K)) / (s.nmp : K)
    let flagKeep := (List.range s.nmp).map (fun i => decide (deathProb < rand i))
        ++ List.replicate ((s.arr .x).length - s.nmp) false
    let s2 := s1.compact flagKeep s1.lifetime
    let chrgAfter := (s2.arr .nel).sum
    let fact := chrg / chrgAfter
    { s2 with arr := fun f =>
        if f = .nel then
          setPrefix (s2.arr .nel) (((s2.arr .nel).take s2.nmp).map (fun v => v * fact))
        else s2.arr f }
  else s

/-- `check_for_soft_regeneration` (MP_system.py:215-219). -/
def MPs.checkSoft (s : MPs K) (cfg : RegenCfg) (rand : ℕ → K) : MPs K :=
  match cfg.soft with
  | none => s
  | some (thr, target) => if s.nmp > thr then s.softRegen target rand else s

/-- `check_for_async_regeneration` (MP_system.py:221-228). -/
def MPs.checkAsync (s : MPs K) (cfg : RegenCfg) (rand : ℕ → K) : MPs K :=
  match cfg.async with
  | none => s
  | some (thr, target) =>
    if s.nmp > thr then
      let s' := s.clean
      if s'.nmp > thr then s'.softRegen target rand else s'
    else s

/-- Sequence of slice assignments `arr_f[lo:hi] = src f` for the fields in `fs`, in order;
the first failing one raises. -/
def assignAll (arr : Fld → List K) (fs : List Fld) (lo hi : ℕ) (src : Fld → Src K) :
    Except PyErr (Fld → List K) :=
  match fs with
  | [] => .ok arr
  | f :: fs =>
    match sliceAssign (arr f) lo hi (src f) with
    | .error e => .error e
    | .ok l => assignAll (Function.update arr f l) fs lo hi src

/-- `add_new_MPs` (MP_system.py:538-551). -/
def MPs.addNew (s : MPs K) (n : ℕ) (src : Fld → Src K) : Except PyErr (MPs K) :=
  match assignAll s.arr (Fld.main ++ if s.lifetime then [.tl] else []) s.nmp (s.nmp + n) src with
  | .error e => .error e
  | .ok arr => .ok { s with arr := arr, nmp := s.nmp + n }

/-- One pass of the rejection loops (MP_system.py:412-418, 466-470, gas_ionization_class.py:110-116):
points outside the chamber are replaced by `gen` of fresh draws; `c` is data attached to each point
(its cell), `rx i`, `ry i` are the draws used for entry `i`. -/
def redraw {α : Type} (outside : K → K → Bool) (gen : α → K → K → K × K)
    (pts : List (α × K × K)) (rx ry : ℕ → K) : List (α × K × K) :=
  pts.mapIdx (fun i p => if outside p.2.1 p.2.2 then (p.1, gen p.1 (rx i) (ry i)) else p)

/-- `while np.sum(is_outside(x, y)) > 0: redraw` with one entry of `rounds` per iteration. -/
def rejectLoop {α : Type} (outside : K → K → Bool) (gen : α → K → K → K × K) :
    List ((ℕ → K) × (ℕ → K)) → List (α × K × K) → Except PyErr (List (α × K × K))
  | rounds, pts =>
    if pts.all (fun p => !outside p.2.1 p.2.2) then .ok pts
    else match rounds with
      | [] => .error .stillRunning
      | r :: rs => rejectLoop outside gen rs (redraw outside gen pts r.1 r.2)

/-- Uniform point in a rectangle (MP_system.py:461-462, 467-468, 511-512). -/
def uniGen (xMax xMin yMax yMin : K) (_ : Unit) (u v : K) : K × K :=
  ((xMax - xMin) * u + xMin, (yMax - yMin) * v + yMin)

/-- Draws of one call of a uniform source. -/
structure UniDraws (K : Type) where
  u : K
  x0 : ℕ → K
  y0 : ℕ → K
  rounds : List ((ℕ → K) × (ℕ → K))
  rvx : K
  rvy : K
  rvz : K

/-- Rectangle in which a uniform distribution is drawn, after the `None` defaults of
MP_system.py:443-450, 490-500 have been replaced. -/
structure Rect (K : Type) where
  xMax : K
  xMin : K
  yMax : K
  yMin : K

/-- The replacement of `None` limits by the chamber apertures (MP_system.py:443-450, 490-500). -/
def Rect.ofOpt (xAper yAper : K) (xMax xMin yMax yMin : Option K) : Rect K where
  xMax := xMax.getD xAper
  xMin := xMin.getD (-xAper)
  yMax := yMax.getD yAper
  yMin := yMin.getD (-yAper)

/-- Sources written by the uniform distributions (MP_system.py:472-481, 519-528). Note that each
velocity component is one draw shared by all new macroparticles (`rand()` without argument). -/
def uniSrc (s : MPs K) (v0 : K) (d : UniDraws K) (pts : List (Unit × K × K)) : Fld → Src K
  | .x => .array (pts.map (·.2.1))
  | .y => .array (pts.map (·.2.2))
  | .z => .scalar 0
  | .vx => .scalar (v0 * (d.rvx - 1 / 2))
  | .vy => .scalar (v0 * (d.rvy - 1 / 2))
  | .vz => .scalar (v0 * (d.rvz - 1 / 2))
  | .nel => .scalar s.ref
  | .tl => .scalar (-1)

section Floor

variable [FloorRing K]

/-- `add_uniform_MP_distrib` (MP_system.py:441-486). `v0` is the value of line 452.
The assignment of `t_last_impact` comes after `N_mp` was advanced (lines 483-486). -/
def MPs.addUniform (s : MPs K) (outside : K → K → Bool) (r : Rect K) (v0 dNel : K)
    (d : UniDraws K) : Except PyErr (MPs K) :=
  let nInt := (stochRound (dNel / s.ref) d.u).toNat
  if 0 < nInt then
    let gen := uniGen r.xMax r.xMin r.yMax r.yMin
    let pts0 := (List.range nInt).map (fun i => ((), gen () (d.x0 i) (d.y0 i)))
    match rejectLoop outside gen d.rounds pts0 with
    | .error e => .error e
    | .ok pts =>
      match assignAll s.arr Fld.main s.nmp (s.nmp + nInt) (uniSrc s v0 d pts) with
      | .error e => .error e
      | .ok arr1 =>
        let nmp' := s.nmp + nInt
        match (if s.lifetime then assignAll arr1 [.tl] nmp' (nmp' + nInt) (uniSrc s v0 d pts)
               else .ok arr1) with
        | .error e => .error e
        | .ok arr2 => .ok { s with arr := arr2, nmp := nmp' }
  else .ok s

/-- `add_uniform_ele_density` (MP_system.py:488-533): points outside the chamber are dropped. Simplified: negative densities, for
which line 533 would lower `N_mp`, count as zero. -/
def MPs.addDensity (s : MPs K) (outside : K → K → Bool) (r : Rect K) (v0 nEle : K)
    (d : UniDraws K) : Except PyErr (MPs K) :=
  let nInt := (stochRound (nEle * (r.xMax - r.xMin) * (r.yMax - r.yMin) / s.ref) d.u).toNat
  let gen := uniGen r.xMax r.xMin r.yMax r.yMin
  let pts := ((List.range nInt).map (fun i => ((), gen () (d.x0 i) (d.y0 i)))).filter
      (fun p => !outside p.2.1 p.2.2)
  let nNew := pts.length
  match (if 0 < nInt then assignAll s.arr Fld.main s.nmp (s.nmp + nNew) (uniSrc s v0 d pts)
         else .ok s.arr) with
  | .error e => .error e
  | .ok arr1 =>
    match (if s.lifetime then assignAll arr1 [.tl] s.nmp (s.nmp + nNew) (uniSrc s v0 d pts)
           else .ok arr1) with
    | .error e => .error e
    | .ok arr2 => .ok { s with arr := arr2, nmp := s.nmp + nNew }

end Floor

/-- The dictionary accepted by `add_from_file` / returned by `extract_dict`; `tl = none` when the
key `'t_last_impact'` is absent. -/
structure MPDict (K : Type) where
  n : ℕ
  data : Fld → List K
  hasTl : Bool

/-- Value assigned by `add_from_file` for each field (MP_system.py:563-576). -/
def dictSrc (d : MPDict K) : Fld → Src K
  | .tl => if d.hasTl then .array (d.data .tl) else .scalar (-1)
  | f => .array (d.data f)

/-- `add_from_file` with an already loaded dictionary (MP_system.py:559-578). -/
def MPs.addDict (s : MPs K) (d : MPDict K) : Except PyErr (MPs K) :=
  match assignAll s.arr (Fld.main ++ if s.lifetime then [.tl] else []) s.nmp (s.nmp + d.n)
      (dictSrc d) with
  | .error e => .error e
  | .ok arr => .ok { s with arr := arr, nmp := s.nmp + d.n }

/-- `extract_dict` (MP_system.py:580-591). `t_last_impact` is not part of the dictionary. -/
def MPs.extractDict (s : MPs K) : MPDict K where
  n := s.nmp
  data := fun f => (s.arr f).take s.nmp
  hasTl := false

/-- `init_from_dict` (MP_system.py:593-595). -/
def MPs.initDict (s : MPs K) (d : MPDict K) : Except PyErr (MPs K) :=
  MPs.addDict { s with nmp := 0 } d

end PyECLOUD
