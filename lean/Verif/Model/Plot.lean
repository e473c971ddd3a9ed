import Verif.Model.Material
/-!
# Plots (/repo/src/dispersion/material.py 714-787, spectrum.py 215-219)

What is handed to matplotlib is the result. The colours and line styles, the choice of axes and
a missing matplotlib are not modelled, nor what was drawn before an exception.
-/

namespace Disp

variable {F : Type} [PyFloat F] [SciPy F]

/-- spectrum.py 215-219 `get_type_unit_string`. -/
def Spectrum.typeUnitString (s : Spectrum F) : Res String := do
  let u ← dictGet displayNames s.unit
  .ok (s.stype ++ " (" ++ u ++ ")")

/-- The two quantities that can be plotted (material.py 714-720). -/
inductive PlotKind
  | nk
  | permittivity

/-- material.py 737 and 740. -/
def PlotKind.labels : PlotKind → String × String
  | .nk => ("n", "k")
  | .permittivity => ("eps_r", "eps_i")

/-- The arguments of a plot; `none` stands for an argument that is not given. -/
structure PlotKw (F : Type) where
  values : Option (Raw F) := Option.none
  stype : Option String := Option.none
  unit : Option String := Option.none

/-- What is drawn: two horizontal lines, or two curves over the same abscissae. -/
inductive Drawing (F : Type)
  | levels (re im : F)
  | curves (x re im : List F)

/-- A plot with its legend and axis labels. -/
structure Plot (F : Type) where
  drawing : Drawing F
  legend : List String
  ylabel : String
  xlabel : String

/-- material.py 762-787 `_prepare_plot_data`. -/
def Material.preparePlot (m : Material F) (kw : PlotKw F) : Res (Spectrum F) :=
  match kw.values with
  | Option.none => m.plotSpectrum kw.stype kw.unit
  | some v => Spectrum.new v (kw.stype.getD m.defType) (kw.unit.getD m.defUnit)

/-- material.py 742-756. A Python float has no `size` (a NumPy float has, it is not modelled);
`plt.plot` raises `ValueError` if abscissae and ordinates differ in number. -/
def drawData (s : Spectrum F) (d : CVals F) : Res (Drawing F) :=
  match s.values with
  | .scalar _ => .error .attribute
  | .array _ xs =>
    if xs.length = 1 then
      match d with
      | .scalar z => .ok (.levels z.re z.im)
      | .array [z] => .ok (.levels z.re z.im)
      | .array _ => .error .value
    else
      match d with
      | .scalar _ => .error .value
      | .array zs =>
        if xs.length = zs.length then .ok (.curves xs (zs.map (·.re)) (zs.map (·.im)))
        else .error .value

/-- material.py 735-740: the data, and the Spectrum object afterwards. -/
def Material.plotData (m : Material F) (k : PlotKind) (s : Spectrum F) :
    Res (CVals F) × Spectrum F :=
  match k with
  | .nk => m.getNk s
  | .permittivity => m.getPermittivity s

/-- material.py 722-760 `_plot_data`. -/
def Material.plot (m : Material F) (k : PlotKind) (kw : PlotKw F) : Res (Plot F) := do
  let s ← m.preparePlot kw
  let data ← (m.plotData k s).1
  let s' := (m.plotData k s).2
  let dr ← drawData s' data
  let x ← s'.typeUnitString
  .ok { drawing := dr, legend := [k.labels.1, k.labels.2],
        ylabel := k.labels.1 ++ ", " ++ k.labels.2, xlabel := x }

end Disp
