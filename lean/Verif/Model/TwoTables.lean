import Verif.Model.FieldData
import Mathlib.Analysis.SpecialFunctions.Pow.Real
/-
Turbine types whose power and thrust depend on the wind speed and a second quantity (turbulence intensity or air density), given by two
tables: foxes/models/turbine_types/wsti2PCt_from_two.py and wsrho2PCt_from_two.py. Real numbers replace doubles, `none` is NaN or
infinity. Custom `interpn` parameters are not modelled (the defaults are linear interpolation and an error outside of the range), nor is
the reading of files.
-/
namespace Foxes.TwoTables
open Foxes.FieldData (along inside)

noncomputable section
open scoped Classical

/-- a pandas frame: the index holds wind speeds, the columns are labelled by values of the second quantity (after
`data.columns.astype(config.dtype_double)`, wsti2PCt_from_two.py:208, 227) -/
structure Frame where
  cols : List ℝ
  rows : List (ℝ × List ℝ)

/-- `data.sort_index(inplace=True)` (wsti2PCt_from_two.py:207, 226, wsrho2PCt_from_two.py:195, 214); the order of equal labels plays no role
here, as such tables cannot be used (`gridOk`) -/
def sortFrame (F : Frame) : Frame := { F with rows := F.rows.insertionSort (fun a b => a.1 ≤ b.1) }

/-- the arrays the model keeps (wsti2PCt_from_two.py:209-211, 228-230, wsrho2PCt_from_two.py:197-199, 216-218) -/
structure Tab where
  ws : List ℝ
  qs : List ℝ
  val : List (List ℝ)

/-- positions of the columns of `data[labels]`: pandas takes all columns of each label (wsti2PCt_from_two.py:211, 230, wsrho2PCt_from_two.py:199, 218) -/
def positions (cols labels : List ℝ) : List ℕ :=
  labels.flatMap (fun l => (List.range cols.length).filter (fun j => decide (cols[j]? = some l)))

/-- `load_data` for one of the two tables (wsti2PCt_from_two.py:194-211, 213-230, wsrho2PCt_from_two.py:182-199, 201-218): the user's frame
afterwards, and the arrays -/
def load (F : Frame) : Frame × Tab :=
  let F' := sortFrame F
  let qs := F.cols.insertionSort (· ≤ ·)
  (F', { ws := F'.rows.map Prod.fst, qs := qs, val := F'.rows.map (fun r => (positions F.cols qs).map (fun j => r.2.getD j 0)) })

/-- `interpn` needs strictly ascending grids that fit to the values -/
def gridOk (T : Tab) : Bool :=
  decide (T.ws.Pairwise (· < ·)) && decide (T.qs.Pairwise (· < ·)) && decide (T.val.length = T.ws.length) &&
    T.val.all (fun r => decide (r.length = T.qs.length))

/-- the interpolated value within the range -/
def bilin (T : Tab) (w q : ℝ) : ℝ := along T.ws w (fun i => along T.qs q (fun j => (T.val.getD i []).getD j 0))

/-- `scipy.interpolate.interpn(grids, values, points, method="linear", bounds_error=True)` for one point; `none`: ValueError, also for NaN
(wsti2PCt_from_two.py:319, 368, wsrho2PCt_from_two.py:298, 338) -/
def interpn (T : Tab) (p : Option ℝ × Option ℝ) : Option ℝ :=
  match p with
  | (some w, some q) => if gridOk T && inside T.ws w && inside T.qs q then some (bilin T w q) else none
  | _ => none

/-- numpy's `b ** e` for doubles, `none` for NaN and infinity -/
def npPow (b e : ℝ) : Option ℝ :=
  if 0 < b then some (b ^ e)
  else if b = 0 then (if 0 ≤ e then some (b ^ e) else none)
  else if ∃ n : ℤ, e = n then some (b ^ e) else none

/-- `(self.rho / rho) ** e` (wsti2PCt_from_two.py:300, 349) -/
def rhoFactor (r e : ℝ) (rho : Option ℝ) : Option ℝ :=
  match rho with
  | some x => if x = 0 then none else npPow (r / x) e
  | none => none

/-- `(cosm ** p) ** e` with `cosm = np.cos(yawm / 180 * np.pi)` (wsti2PCt_from_two.py:313-314, 362-363, wsrho2PCt_from_two.py:292-293, 332-333) -/
def yawFactor (p e y : ℝ) : Option ℝ := (npPow (Real.cos (y / 180 * Real.pi)) p).bind (fun c => npPow c e)

/-- product of two doubles -/
def mul (a b : Option ℝ) : Option ℝ :=
  match a, b with
  | some x, some y => some (x * y)
  | _, _ => none

/-- numpy's `a *= b` for vectors: equal lengths, or `b` has one element; otherwise ValueError -/
def imul (a b : List (Option ℝ)) : Option (List (Option ℝ)) :=
  if a.length = b.length then some (List.zipWith mul a b)
  else match b with
    | [y] => some (a.map (fun x => mul x y))
    | _ => none

/-- farm data: arrays over states and turbines, with entries `E` -/
abbrev Fd (E : Type) := String → Option (E → Option ℝ)

/-- assignment to a variable -/
def put {E : Type} (fd : Fd E) (v : String) (a : E → Option ℝ) : Fd E := fun u => if u = v then some a else fd u

/-- `(x >= lo) & (x <= hi)`, false for NaN (wsti2PCt_from_two.py:281-282) -/
def within (lo hi : ℝ) : Option ℝ → Bool
  | some x => decide (lo ≤ x) && decide (x ≤ hi)
  | none => false

/-- what differs between the calculations of power and thrust coefficient -/
structure Part where
  /-- the variable that is calculated -/
  out : String
  /-- the wind speed variable whose range is checked -/
  wsSel : String
  /-- the wind speed variable that is looked up -/
  wsQ : String
  /-- exponent of the density correction -/
  eRho : ℝ
  /-- exponent of the yaw correction -/
  eYaw : ℝ
  /-- the parameter of the yaw correction -/
  p : Option ℝ

/-- selected entries outside of the range get zero (wsti2PCt_from_two.py:284-286, 333-335, wsrho2PCt_from_two.py:272-274, 312-314) -/
def zeroOut {E : Type} (es : List E) (off : E → Bool) (out : String) (fd : Fd E) : Option (Fd E) :=
  if es.any off then (fd out).map (fun a => put fd out (fun e => if off e then some 0 else a e)) else some fd

/-- density correction of the wind speeds `sp` (wsti2PCt_from_two.py:295-301, 344-350): the densities are those of all selected entries,
`fdata[FV.RHO][st_sel]` -/
def corrRho {E : Type} (es : List E) (sel : E → Bool) (rho : Option ℝ) (e : ℝ) (fd : Fd E) (sp : List (Option ℝ)) : Option (List (Option ℝ)) :=
  match rho with
  | none => some sp
  | some r => (fd "RHO").bind (fun rv => imul sp ((es.filter sel).map (fun x => rhoFactor r e (rv x))))

/-- yaw correction (wsti2PCt_from_two.py:304-315, 353-364, wsrho2PCt_from_two.py:283-294, 323-334): raises for NaN -/
def corrYaw {E : Type} (es' : List E) (p : Option ℝ) (e : ℝ) (fd : Fd E) (sp : List (Option ℝ)) : Option (List (Option ℝ)) :=
  match fd "YAWM", p with
  | some y, some p => (es'.mapM y).map (fun f => List.zipWith mul sp (f.map (yawFactor p e)))
  | _, _ => some sp

/-- look-up for the selected entries within the range (wsti2PCt_from_two.py:287-323, 336-372, wsrho2PCt_from_two.py:275-302, 315-342) -/
def lookUp {E : Type} (es : List E) (sel inR : E → Bool) (q : String) (rho : Option ℝ) (T : Tab) (c : Part) (fd : Fd E) : Option (Fd E) := do
  let es' := es.filter inR
  let wq ← fd c.wsQ
  let qv ← fd q
  let sp ← corrRho es sel rho c.eRho fd (es'.map wq)
  let sp ← corrYaw es' c.p c.eYaw fd sp
  let vals ← (List.zip sp (es'.map qv)).mapM (interpn T)
  let a ← fd c.out
  pure (put fd c.out (fun e => if inR e then vals[es'.idxOf e]? else a e))

/-- one half of `calculate` (power: wsti2PCt_from_two.py:278-324, wsrho2PCt_from_two.py:266-303; thrust coefficient:
wsti2PCt_from_two.py:327-373, wsrho2PCt_from_two.py:306-343). `es` are the entries of the chunk in the order of numpy's boolean selection,
`range` the wind speeds of the table whose range is checked, `q` the second variable, `rho` the reference density (only with turbulence
intensity as second quantity); `none`: an exception. -/
def step {E : Type} (es : List E) (sel : E → Bool) (q : String) (rho : Option ℝ) (range : List ℝ) (T : Tab) (c : Part) (fd : Fd E) :
    Option (Fd E) :=
  (fd c.wsSel).bind (fun ws => range.head?.bind (fun lo => range.getLast?.bind (fun hi =>
    let inR := fun e => sel e && within lo hi (ws e)
    (zeroOut es (fun e => sel e && !inR e) c.out fd).bind (fun fd1 =>
      if es.any inR then lookUp es sel inR q rho T c fd1 else some fd1))))

/-- the parameters of the turbine type -/
structure Cfg where
  /-- the second variable: `TI` or `RHO` -/
  q : String
  /-- reference density of `WsTI2PCtFromTwo`; `WsRho2PCtFromTwo` has none -/
  rho : Option ℝ
  pP : Option ℝ
  pCt : Option ℝ
  WSP : String
  WSCT : String

/-- the calculation of power -/
def partP (cfg : Cfg) : Part := { out := "P", wsSel := cfg.WSP, wsQ := cfg.WSP, eRho := 1 / 3, eYaw := 1 / 3, p := cfg.pP }

/-- the calculation of the thrust coefficient; line 340 (wsrho2PCt_from_two.py:319) looks up `WSP` -/
def partCt (cfg : Cfg) : Part := { out := "CT", wsSel := cfg.WSCT, wsQ := cfg.WSP, eRho := 1 / 2, eYaw := 1 / 2, p := cfg.pCt }

/-- `calculate` (wsti2PCt_from_two.py:251-375, wsrho2PCt_from_two.py:239-345); both parts check the range of the power table
(lines 281 and 330) -/
def calculate {E : Type} (cfg : Cfg) (TP TC : Tab) (es : List E) (sel : E → Bool) (fd : Fd E) : Option (Fd E) := do
  let fd1 ← step es sel cfg.q cfg.rho TP.ws TP (partP cfg) fd
  step es sel cfg.q cfg.rho TP.ws TC (partCt cfg) fd1

end

end Foxes.TwoTables
