import Verif.Model.SimStep

/-!
# Specification vocabulary: the same simulation with all charges multiplied by a factor

Multiplied are the sizes of the macroparticles, the reference sizes and thresholds, what the sources produce per time, and
everything the impact managers have accumulated; positions, velocities and times are the same.
-/

namespace PyECLOUD

variable {K : Type} [Field K] [LinearOrder K]

/-- the factor applies to the sizes only -/
def sclFld (l : K) (f : Fld) (v : K) : K := if f = .nel then l * v else v

def MPs.scl (l : K) (s : MPs K) : MPs K :=
  { s with arr := fun f => (s.arr f).map (sclFld l f), ref := l * s.ref, split := l * s.split, clTh := l * s.clTh,
           ref0 := l * s.ref0 }

def Impact.scl (l : K) (i : Impact K) : Impact K := { i with nel := l * i.nel }

def Emit.scl (l : K) (e : Emit K) : Emit K := { e with nel := l * e.nel }

def SeyOut.scl (l : K) (o : SeyOut K) : SeyOut K :=
  ⟨o.nelEmit.map (l * ·), o.replace.map (Emit.scl l), o.new.map (Emit.scl l)⟩

def ImpHist.scl (l : K) (h : ImpHist K) : ImpHist K where
  tot := h.tot.map (l * ·)
  scrub := h.scrub.map (l * ·)
  energ := h.energ.map (l * ·)
  cos := h.cos.map (l * ·)
  enLine := h.enLine.map (l * ·)
  life := h.life.map (l * ·)
  segNel := h.segNel.map (l * ·)
  segEmit := h.segEmit.map (l * ·)
  segEn := h.segEn.map (l * ·)
  segEnLines := h.segEnLines.map (fun a => a.map (l * ·))

def ImpCount.scl (l : K) (n : ImpCount K) : ImpCount K := ⟨l * n.nelImp, l * n.nelEmit, l * n.enImp, l * n.enEmit⟩

/-- A simulation without cross ionisation. -/
def SimSt.scl (l : K) (st : SimSt K) : SimSt K where
  clouds := st.clouds.map (fun c => { c with mps := c.mps.scl l })
  hists := fun i => (st.hists i).scl l
  cnt := fun i => (st.cnt i).scl l
  cross := none

def PhotoCfg.scl (l : K) : PhotoCfg K → PhotoCfg K
  | .off => .off
  | .rays kc mean => .rays (l * kc) mean
  | .segs kc mean g cdf => .segs (l * kc) mean g cdf

/-- The rates of the sources are multiplied. -/
def SimCfg.scl (l : K) (S : SimCfg K) : SimCfg K :=
  { S with gas := fun i => { S.gas i with kIon := l * (S.gas i).kIon }, photo := fun i => (S.photo i).scl l }

/-- An emission model whose yields do not depend on the sizes of the macroparticles. -/
def SeyLinear (sey : K → List (Impact K) → Except PyErr (SeyOut K)) : Prop :=
  ∀ l : K, 0 < l → ∀ th imps, sey (l * th) (imps.map (Impact.scl l)) = (sey th imps).map (SeyOut.scl l)

end PyECLOUD
