/-
Model of the dictionary that becomes the main output file: `build_outp_dict`
(pyecloud_saver.py:432-508) and `_stepbystep_get_dict` (pyecloud_saver.py:871-902).

The values are opaque: `V` stands for whatever Python object an attribute of the saver holds, and
`attr` gives the value of the attribute of the given name (for the step-by-step channels: the part
`[:i_last_save + 1]` that is handed out).  What is modelled is which value is filed under which
name, in which order the groups of names are written, and which names survive.
-/
import Verif.Model.Np

namespace PyECLOUD

variable {V : Type}

/-- `d[k] = v` on a Python dictionary kept as an association list: the value under an existing key
is replaced in place, a new key is put at the end (pyecloud_saver.py:468-506, every `saved_dict[..] =`). -/
def outSet (k : String) (v : V) : List (String × V) → List (String × V)
  | [] => [(k, v)]
  | p :: d => if p.1 = k then (k, v) :: d else p :: outSet k v d

/-- `d.update(e)` (pyecloud_saver.py:489, 492) and the loops that write one key after the other. -/
def outUpdate (d : List (String × V)) (e : List (String × V)) : List (String × V) :=
  e.foldl (fun d p => outSet p.1 p.2 d) d

/-- `'hist' in etypn` (pyecloud_saver.py:486). -/
def hasHist : List Char → Bool
  | [] => false
  | c :: l => List.isPrefixOf "hist".toList (c :: l) || hasHist l

/-- What `build_outp_dict` reads from the saver and from its arguments. -/
structure OutSrc (V : Type) where
  /-- value of the attribute of this name -/
  attr : String → V
  /-- `flag_lifetime_hist` -/
  lifetime : Bool
  /-- `extract_ene_dist` -/
  extractEne : Bool
  /-- `flag_detailed_MP_info == 1` -/
  detailed : Bool
  /-- `flag_cross_ion` -/
  cross : Bool
  /-- `flag_electric_energy` -/
  elec : Bool
  /-- `flag_el_dens_probes` -/
  probes : Bool
  /-- `sey_test_deltas`: event type name and matrix -/
  sey : List (String × V)
  /-- `emit_ene_dist_test`: key and matrix -/
  ene : List (String × V)
  /-- `sbs_custom_data` -/
  sbs : List (String × V)
  /-- `pbp_custom_data` -/
  pbp : List (String × V)
  /-- the `save_once` observables, each with its value for this simulation -/
  once : List (String × V)
  /-- `save_only` -/
  saveOnly : Option (List String)
  /-- a value put into a tuple of length one (the trailing comma of line 475) -/
  tup : V → V
  /-- `np.array(..)` (line 500) -/
  conv : V → V

/-- The keys of the literal at pyecloud_saver.py:433-466, with the attribute filed under each. -/
def outpKeys : List (String × String) :=
  [("t_hist", "t_hist"), ("nel_hist", "nel_hist"), ("xg_hist", "xg_hist"),
   ("nel_impact_hist_tot", "nel_impact_hist_tot"), ("nel_impact_hist_scrub", "nel_impact_hist_scrub"),
   ("energ_eV_impact_hist", "energ_eV_impact_hist"), ("En_g_hist", "En_g_hist"), ("En_hist", "En_hist"),
   ("En_hist_seg", "En_hist_seg"), ("all_Ekin_hist", "all_Ekin_hist"), ("t_En_hist", "t_En_hist"),
   ("b_spac", "b_spac"), ("t_sc_video", "t_sc_video"), ("U_sc_eV", "U_sc_eV"),
   ("N_mp_impact_pass", "N_mp_impact_pass"), ("N_mp_corrected_pass", "N_mp_corrected_pass"),
   ("N_mp_pass", "N_mp_pass"), ("N_mp_ref_pass", "N_mp_ref_pass"),
   ("nel_hist_impact_seg", "nel_hist_impact_seg"), ("nel_hist_emit_seg", "nel_hist_emit_seg"),
   ("energ_eV_impact_seg", "energ_eV_impact_seg"), ("t_sec_beams", "t_sec_beams"),
   ("sec_beam_profiles", "sec_beam_profiles"), ("x_el_dens_probes", "x_el_dens_probes"),
   ("y_el_dens_probes", "y_el_dens_probes"), ("r_el_dens_probes", "r_el_dens_probes"),
   ("nel_hist_det", "nel_hist_det"), ("xg_hist_det", "xg_hist_det"), ("dec_fact_out", "dec_fact_out"),
   ("chamber_area", "area"), ("cos_angle_hist", "cos_angle_hist"),
   ("xg_hist_cos_angle", "xg_hist_cos_angle")]

/-- The entries of `_stepbystep_get_dict` before the customised ones (pyecloud_saver.py:872-897). -/
def sbsKeys (s : OutSrc V) : List (String × String) :=
  [("t", "t"), ("lam_t_array", "lam_t_array"), ("Nel_timep", "Nel_timep"), ("Nel_imp_time", "Nel_imp_time"),
   ("Nel_emit_time", "Nel_emit_time"), ("En_imp_eV_time", "En_imp_eV_time"),
   ("En_emit_eV_time", "En_emit_eV_time"), ("En_kin_eV_time", "En_kin_eV_time"),
   ("cen_density", "cen_density")]
  ++ (if s.detailed then [("N_mp_time", "N_mp_time"), ("nel_mp_ref_time", "nel_mp_ref_time")] else [])
  ++ (if s.cross then [("Nel_cross_ion", "Nel_cross_ion"), ("N_mp_cross_ion", "N_mp_cross_ion"),
        ("DN_cross_ion", "DN_cross_ion")] else [])
  ++ (if s.elec then [("En_electric_eV_time", "En_electric_eV_time")] else [])
  ++ (if s.probes then [("el_dens_at_probes", "el_dens_at_probes")] else [])

/-- Attributes looked up under their names. -/
def OutSrc.read (s : OutSrc V) (l : List (String × String)) : List (String × V) :=
  l.map (fun p => (p.1, s.attr p.2))

/-- `_stepbystep_get_dict` (pyecloud_saver.py:871-902). -/
def sbsDict (s : OutSrc V) : List (String × V) :=
  outUpdate (s.read (sbsKeys s)) s.sbs

/-- The lifetime entries (pyecloud_saver.py:468-471). -/
def lifetimeDict (s : OutSrc V) : List (String × V) :=
  if s.lifetime then s.read [("lifetime_g_hist", "lifetime_g_hist"), ("lifetime_hist", "lifetime_hist"),
    ("t_lifetime_hist", "t_lifetime_hist")] else []

/-- The extracted yield (pyecloud_saver.py:474-478); the energies go through the trailing comma of
line 475 and are filed as a tuple of length one. -/
def seyDict (s : OutSrc V) : List (String × V) :=
  [("sey_test_E_impact_eV", s.tup (s.attr "sey_test_E_impact_eV")),
   ("sey_test_cos_theta", s.attr "sey_test_cos_theta")]
  ++ s.sey.map (fun p => ("sey_test_del_" ++ p.1 ++ "_mat", p.2))

/-- The extracted energy distributions (pyecloud_saver.py:480-487). -/
def eneDict (s : OutSrc V) : Except PyErr (List (String × V)) :=
  if s.extractEne then
    match s.ene.lookup "emit_ene_g_hist" with
    | none => .error .keyError
    | some g => .ok
        ([("ene_dist_test_cos_theta", s.attr "ene_dist_test_cos_theta"),
          ("ene_dist_test_E_impact_eV", s.attr "ene_dist_test_E_impact_eV"), ("emit_ene_g_hist", g)]
         ++ (s.ene.filter (fun p => !hasHist p.1.toList)).map (fun p => ("emit_ene_test_" ++ p.1 ++ "_mat", p.2)))
  else .ok []

/-- The dictionary before `save_only` (pyecloud_saver.py:432-500). -/
def fullDict (s : OutSrc V) : Except PyErr (List (String × V)) :=
  match eneDict s with
  | .error e => .error e
  | .ok e =>
    let d := outUpdate (s.read outpKeys) (lifetimeDict s)
    let d := outUpdate d (seyDict s)
    let d := outUpdate d e
    let d := outUpdate d (sbsDict s)
    let d := outUpdate d s.pbp
    let d := outUpdate d s.once
    .ok (d.map (fun p => (p.1, s.conv p.2)))

/-- `for kk in self.save_only: saved_dict[kk] = old_dict[kk]` (pyecloud_saver.py:502-506). -/
def onlyDict (old : List (String × V)) : List String → List (String × V) → Except PyErr (List (String × V))
  | [], d => .ok d
  | k :: l, d =>
    match old.lookup k with
    | none => .error .keyError
    | some v => onlyDict old l (outSet k v d)

/-- `build_outp_dict` (pyecloud_saver.py:432-508). -/
def buildOutp (s : OutSrc V) : Except PyErr (List (String × V)) :=
  match fullDict s with
  | .error e => .error e
  | .ok d =>
    match s.saveOnly with
    | none => .ok d
    | some l => onlyDict d l []

end PyECLOUD
