import Mathlib.Analysis.SpecialFunctions.Pow.Real
import Mathlib.Analysis.Real.Sqrt

/-!
# Model of `pyrayt/utils.py` and of the refractive index models of `pyrayt/materials.py`
-/

namespace PyRayT

/-- `np.where(cond, zone, color)` on a colour that may still be uninitialised (`np.empty`, line 17). -/
noncomputable def paint (cond : Prop) [Decidable cond] (zone : Fin 3 → ℝ) (color : Option (Fin 3 → ℝ)) :
    Option (Fin 3 → ℝ) := if cond then some zone else color

/-- `pyrayt/utils.py` lines 5-102 `wavelength_to_rgb`, for one entry of the wavelength array.
`none` is the uninitialised memory of `np.empty`. -/
noncomputable def wavelengthToRgb (gamma w : ℝ) : Option (Fin 3 → ℝ) :=
  let color : Option (Fin 3 → ℝ) := none
  -- lines 19-35
  let clipped := max w 0.38
  let att := 0.3 + 0.7 * (clipped - 0.38) / (0.44 - 0.38)
  let color := paint (w < 0.44)
    ![|-(clipped - 0.44) / (0.44 - 0.38) * att| ^ gamma, 0, |1.0 * att| ^ gamma] color
  -- lines 37-48
  let color := paint (w ≥ 0.44 ∧ w < 0.49) ![0, |(w - 0.44) / (0.49 - 0.44)| ^ gamma, 1] color
  -- lines 50-61
  let color := paint (w ≥ 0.49 ∧ w < 0.51) ![0, 1, |(0.51 - w) / (0.51 - 0.49)| ^ gamma] color
  -- lines 63-74
  let color := paint (w ≥ 0.51 ∧ w < 0.58) ![|(w - 0.51) / (0.58 - 0.51)| ^ gamma, 1, 0] color
  -- lines 76-87
  let color := paint (w ≥ 0.58 ∧ w < 0.645) ![1, |(0.645 - w) / (0.645 - 0.58)| ^ gamma, 0] color
  -- lines 89-100
  let clipped := min w 0.75
  let att := 0.3 + 0.7 * (0.75 - clipped) / (0.75 - 0.645)
  let color := paint (w ≥ 0.645) ![|att| ^ gamma, 0, 0] color
  color

/-- `pyrayt/utils.py` lines 105-118 `lensmakers_equation`. Python raises ZeroDivisionError where a
denominator vanishes (`r1`, `r2`, `n_lens` or the power `p`); the model returns `none`. -/
noncomputable def lensmakersEquation (r1 r2 n t : ℝ) : Option ℝ :=
  let p := (n - 1) * (1 / r1 - 1 / r2 + (n - 1) * t / (n * r1 * r2))
  open Classical in
  if r1 = 0 ∨ r2 = 0 ∨ n = 0 ∨ p = 0 then none else some (1 / p)

/-- `pyrayt/materials.py`: the refractive index models `BasicRefractor` (lines 102-118) and
`SellmeierRefractor` (lines 121-145). -/
inductive IndexModel where
  | basic (n : ℝ)
  | sellmeier (b1 b2 b3 c1 c2 c3 : ℝ)

/-- `pyrayt/materials.py` lines 112-118 and 136-145 `index_at`. Real square root and division: numpy yields
nan for a negative radicand and ±inf for `w² = c`, the model 0 there. -/
noncomputable def IndexModel.indexAt : IndexModel → ℝ → ℝ
  | .basic n, _ => n
  | .sellmeier b1 b2 b3 c1 c2 c3, w =>
    √(1 + b1 * w ^ 2 / (w ^ 2 - c1) + b2 * w ^ 2 / (w ^ 2 - c2) + b3 * w ^ 2 / (w ^ 2 - c3))

/-- `pyrayt/materials.py` lines 77-86 `Glass.abbe`. (For `BasicRefractor` the denominator is zero and Python
raises; real division gives 0.) -/
noncomputable def IndexModel.abbe (m : IndexModel) : ℝ :=
  (m.indexAt 0.5893 - 1) / (m.indexAt 0.4861 - m.indexAt 0.6563)

/-- `pyrayt/materials.py` lines 155-171, the entries of the dictionary `glass`. -/
noncomputable def glassIdeal : IndexModel := .basic 1.5
/-- `glass["BK7"]`, lines 157-164 -/
noncomputable def glassBK7 : IndexModel :=
  .sellmeier 1.03961212 0.231792344 1.01046945 6.00069867e-3 2.00179144e-2 1.03560653e02
/-- `glass["SF5"]`, lines 165-167 -/
noncomputable def glassSF5 : IndexModel :=
  .sellmeier 1.52481889 0.187085527 1.42729015 0.011254756 0.0588995392 129.141675
/-- `glass["SF2"]`, lines 168-170 -/
noncomputable def glassSF2 : IndexModel :=
  .sellmeier 1.40301821 0.231767504 0.939056586 0.0105795466 0.0493226978 112.405955

end PyRayT
