import Verif.Model.PyHT

/-!
# The frozen field map in the slice-by-slice mode

Transverse_Efield_map_for_frozen_cloud.py:24-30, 58-88 and `track_once_and_replace_with_recorded_field_map` of PyEC4PyHT.py.
A piece of the beam is a slice, or a part that is not sliced (`slice_info == "unsliced"`), which no element of the ring
touches here.
-/

namespace PyECLOUD

/-- A part of the beam as handed to `track` in the slice-by-slice mode. -/
inductive Piece (K : Type) where
  | unsliced (p : SliceIn K)
  | slice (sl : SliceIn K)
  deriving DecidableEq

/-- Calls on an element of the ring in the slice-by-slice mode: `track(piece)` or `finalize_and_reinitialize()`. -/
inductive MapCall (K : Type) where
  | track (p : Piece K)
  | restart

variable {K : Type} [Field K] [LinearOrder K] [FloorRing K] {C F : Type}

/-- `_track_in_single_slice_mode` of the map (Transverse_Efield_map_for_frozen_cloud.py:80-84): `sid` is the state of the object,
`maps` are `Ex`, `Ey`. -/
def frozenPiece (g : EcCfg K) (m : EcSim K C F) (maps : List F) (sid : ℤ) : Piece K → Except PyErr (ℤ × Piece K)
  | .unsliced p => .ok (sid, .unsliced p)
  | .slice sl => do
    let f ← pyGet maps (sid - 1)
    .ok (sid - 1, .slice (frozenKick g m f sl))

/-- A sequence of calls on the map (Transverse_Efield_map_for_frozen_cloud.py:80-88): the new state and the pieces tracked. -/
def frozenCalls (g : EcCfg K) (m : EcSim K C F) (maps : List F) : ℤ → List (MapCall K) → Except PyErr (ℤ × List (Piece K))
  | sid, [] => .ok (sid, [])
  | _, .restart :: l => frozenCalls g m maps 0 l
  | sid, .track p :: l => do
    let (sid1, p1) ← frozenPiece g m maps sid p
    let (sid2, l2) ← frozenCalls g m maps sid1 l
    .ok (sid2, p1 :: l2)

/-- `_track_in_single_slice_mode` of the cloud (PyEC4PyHT.py:852-864) over the pieces of a beam. -/
def trackPieces (g : EcCfg K) (m : EcSim K C F) : List (Piece K) → EcSt K C F → Except PyErr (EcSt K C F × List (Piece K))
  | [], s => .ok (s, [])
  | .unsliced p :: l, s => do
    let (s2, l2) ← trackPieces g m l s
    .ok (s2, .unsliced p :: l2)
  | .slice sl :: l, s => do
    let (s1, sl1) ← trackSlice g m false s sl
    let (s2, l2) ← trackPieces g m l s1
    .ok (s2, .slice sl1 :: l2)

/-- `track_once_and_replace_with_recorded_field_map` (PyEC4PyHT.py:466-482) in the slice-by-slice mode: the recorded maps and
the tracked pieces. The configuration `g` is the one with `save_ele_field` set. -/
def recordMaps (g : EcCfg K) (m : EcSim K C F) (s : EcSt K C F) (pieces : List (Piece K)) : Except PyErr (List F × List (Piece K)) := do
  let (s1, l) ← trackPieces { g with saveField := true } m pieces (ecReinit { g with saveField := true } m s)
  .ok ((ecFinalize { g with saveField := true } s1).saved, l)

end PyECLOUD
