import Mathlib.Analysis.SpecialFunctions.Pow.Real
import Mathlib.Analysis.SpecialFunctions.Trigonometric.Arctan
import Verif.Model.PowerCurve
/-
Model of vertical wind profiles: foxes/utils/abl/*.py, foxes/models/vertical_profiles/*.py, and of the point models
foxes/models/point_models/{ustar2ti,tke2ti,wake_deltas}.py. Real numbers replace doubles; one array entry is modelled,
since all operations are elementwise. `x ^ 0.25` of a negative number is NaN in numpy and not modelled (heights are non-negative).
-/
namespace Foxes.Abl

noncomputable section
open scoped Classical

/-- `FC.KAPPA` (constants.py:149) -/
def kappa : ℝ := 0.41

/-! ### Neutral -/

/-- `neutral.logz` (utils/abl/neutral.py:24-25), also used for stable and unstable (stable.py:25, unstable.py:3) -/
def logz (h z0 : ℝ) : ℝ := Real.log (max h z0 / z0)

/-- `neutral.ustar` (utils/abl/neutral.py:52-53) -/
def neutralUstar (ws h z0 : ℝ) : ℝ := ws * kappa / logz h z0

/-- `neutral.calc_ws` (utils/abl/neutral.py:79) -/
def neutralWs (h z0 ustar : ℝ) : ℝ := ustar / kappa * logz h z0

/-! ### Stable -/

/-- `stable.psi` (utils/abl/stable.py:47-48) -/
def stablePsi (h mol : ℝ) : ℝ := -5 * min h |mol| / mol

/-- `stable.ustar` (utils/abl/stable.py:77) -/
def stableUstar (ws h z0 mol : ℝ) : ℝ := ws * kappa / (logz h z0 - stablePsi h mol)

/-- `stable.calc_ws` (utils/abl/stable.py:105), identical in unstable.py:88 -/
def stratifiedWs (h z0 ustar psi : ℝ) : ℝ := ustar / kappa * (logz h z0 - psi)

/-! ### Unstable -/

/-- `unstable.psi` (utils/abl/unstable.py:25-31) -/
def unstablePsi (h mol : ℝ) : ℝ :=
  let x := (1 - 16 * h / mol) ^ (0.25 : ℝ)
  2 * Real.log ((1 + x) / 2) + Real.log ((1 + x ^ 2) / 2) - 2 * Real.arctan x + Real.pi / 2

/-- `unstable.ustar` (utils/abl/unstable.py:60) -/
def unstableUstar (ws h z0 mol : ℝ) : ℝ := ws * kappa / (logz h z0 - unstablePsi h mol)

/-! ### Profiles -/

/-- what the profile is scaled with: the option `ustar_input` of the log profiles (abl_log_ws.py:83-90) -/
inductive Scale
  | ustar (u : ℝ)
  | ref (ws h0 : ℝ)

/-- `ABLLogNeutralWsProfile.calculate` (abl_log_neutral_ws.py:71-79) -/
def neutralProfile (s : Scale) (z0 h : ℝ) : ℝ :=
  match s with
  | .ustar u => neutralWs h z0 u
  | .ref ws h0 => neutralWs h z0 (neutralUstar ws h0 z0)

/-- `ABLLogStableWsProfile.calculate` (abl_log_stable_ws.py:71-82) -/
def stableProfile (s : Scale) (z0 mol h : ℝ) : ℝ :=
  match s with
  | .ustar u => stratifiedWs h z0 u (stablePsi h mol)
  | .ref ws h0 => stratifiedWs h z0 (stableUstar ws h0 z0 mol) (stablePsi h mol)

/-- `ABLLogUnstableWsProfile.calculate` (abl_log_unstable_ws.py:71-82) -/
def unstableProfile (s : Scale) (z0 mol h : ℝ) : ℝ :=
  match s with
  | .ustar u => stratifiedWs h z0 u (unstablePsi h mol)
  | .ref ws h0 => stratifiedWs h z0 (unstableUstar ws h0 z0 mol) (unstablePsi h mol)

/-- `ABLLogWsProfile.calculate` (abl_log_ws.py:92-131); `mol = none` is NaN -/
def logProfile (s : Scale) (z0 : ℝ) (mol : Option ℝ) (h : ℝ) : ℝ :=
  match mol with
  | none => neutralProfile s z0 h
  | some m =>
      if m = 0 then neutralProfile s z0 h
      else if m > 0 then stableProfile s z0 m h
      else unstableProfile s z0 m h

/-- `sheared.calc_ws` (utils/abl/sheared.py:24), `ShearedProfile.calculate` (sheared_ws.py:48-60) -/
def sheared (ws h0 shear h : ℝ) : ℝ := ws * (h / h0) ^ shear

/-- `UniformProfile.calculate` (uniform.py:63-65) -/
def uniform (v _h : ℝ) : ℝ := v

/-- the data of a `DataProfile` after the constructor (data_profile.py:76-79): sorted by height -/
def sortZ (tab : List (ℝ × ℝ)) : List (ℝ × ℝ) := tab.insertionSort (fun a b => a.1 ≤ b.1)

/-- `DataProfile.calculate` (data_profile.py:112): `interp1d` with default parameters is linear and raises (`none`) outside of the data -/
def dataProfile (tab : List (ℝ × ℝ)) (h : ℝ) : Option ℝ :=
  if (∃ p ∈ tab, p.1 ≤ h) ∧ (∃ p ∈ tab, h ≤ p.1) then some (PowerCurve.interp (sortZ tab) h) else none

/-! ### Point models -/

/-- `Ustar2TI.calculate` (ustar2ti.py:77-84) -/
def ustar2ti (maxTi : Option ℝ) (ustar ws : ℝ) : ℝ :=
  let ti := ustar / kappa / ws
  match maxTi with
  | none => ti
  | some m => max ti m

/-- `TKE2TI.calculate` (tke2ti.py:57-60) -/
def tke2ti (tke ws : ℝ) : ℝ := Real.sqrt (1.5 * tke) / ws

/-- dictionary look-up -/
def dictGet (d : List (String × ℝ)) (k : String) : Option ℝ := (d.find? (fun e => e.1 == k)).map Prod.snd

/-- `WakeDeltas.calculate` (wake_deltas.py:80-86) at one point; `amb` is `FV.var2amb`, `none` a KeyError -/
def wakeDeltas (vars : List String) (normalize : Bool) (amb : String → Option String) (pdata : List (String × ℝ)) :
    Option (List (String × ℝ)) := do
  let out ← vars.mapM (fun v => do
    let a ← amb v
    let x ← dictGet pdata v
    let y ← dictGet pdata a
    return (("DELTA_" ++ v), x - y))
  if normalize then
    vars.foldlM (fun out v => do
      let x ← dictGet out v
      let a ← amb v
      let y ← dictGet pdata a
      return out.map (fun e => if e.1 == v then (e.1, x / y) else e)) out
  else return out

end

end Foxes.Abl
