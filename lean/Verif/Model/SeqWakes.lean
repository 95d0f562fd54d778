import Verif.Model.Streamlines
/-
Model of the wake frame SeqDynamicWakes, foxes/models/wake_frames/seq_dynamic_wakes.py, for one wake causing turbine.
Real numbers replace doubles, `none` is NaN.
-/
namespace Foxes.SeqWakes
open Foxes.Frames Foxes.WindDir

noncomputable section
open scoped Classical

/-- the wake traces of one turbine, by state of origin: position, horizontal wind vector, length of the path (seq_dynamic_wakes.py:94-103; the third
component of `_traces_v` is never set and remains zero) -/
structure Traces where
  p : ℕ → V3
  v : ℕ → ℝ × ℝ
  l : ℕ → Option ℝ

/-- `initialize` (seq_dynamic_wakes.py:94-103) -/
def init : Traces := ⟨fun _ => ⟨0, 0, 0⟩, fun _ => (0, 0), fun _ => none⟩

/-- what the evaluation at a state depends on: the rotor centre of the turbine, the wind vector of the states at a point
(`wd2uv(res[WD], res[WS])`, seq_dynamic_wakes.py:187-191) and the time steps `_dt` in seconds: `nDt` entries -/
structure Env where
  hub : ℕ → V3
  wind : ℕ → V3 → ℝ × ℝ
  dt : ℕ → ℝ
  nDt : ℕ

/-- the update of the traces at state `c` (seq_dynamic_wakes.py:164-192), only if the trace of that state has no length yet -/
def update (E : Env) (c : ℕ) (m : Traces) : Traces :=
  match m.l c with
  | some _ => m
  | none =>
    let d := fun s => (⟨(m.v s).1 * E.dt (c - 1), (m.v s).2 * E.dt (c - 1), 0⟩ : V3)
    let p := fun s => if s < c then (m.p s).add (d s) else if s = c then E.hub c else m.p s
    let l := fun s => if s < c then (m.l s).map fun a => a + (d s).norm else if s = c then some 0 else m.l s
    ⟨p, fun s => if s ≤ c then E.wind c (p s) else m.v s, l⟩

/-- `cdist` (seq_dynamic_wakes.py:195) for one target and one trace -/
def dist3D (a b : V3) : ℝ := (a.sub b).norm

/-- index of the nearest trace, the state of wake creation `STATES_SEL` (seq_dynamic_wakes.py:195-196, 225-229) -/
def nearest (c : ℕ) (m : Traces) (p : V3) : ℕ := Foxes.Streamlines.npArgmin (c + 1) fun s => some (dist3D p (m.p s))

/-- one target's wake coordinates (seq_dynamic_wakes.py:199-218): x (`none`: NaN) and y, or `none` if both are 1e20 (no wake); and z. Zero wind gives NaN
directions, for which the comparisons are false -/
def coos (E : Env) (c : ℕ) (m : Traces) (p : V3) : Option (Option ℝ × ℝ) × ℝ :=
  let s := nearest c m p
  let mv := √((m.v s).1 ^ 2 + (m.v s).2 ^ 2)
  let nx := ((m.v s).1 / mv, (m.v s).2 / mv)
  let delp := (p.x - (m.p s).x, p.y - (m.p s).y)
  let projx := delp.1 * nx.1 + delp.2 * nx.2
  let dt := if c < E.nDt then E.dt c else E.dt (E.nDt - 1)
  let dx := mv * dt
  (if mv ≠ 0 ∧ -dx < projx ∧ projx < dx then some ((m.l s).map fun a => projx + a, delp.1 * -nx.2 + delp.2 * nx.1) else none, p.z - (E.hub c).z)

/-- `get_wake_coos` (seq_dynamic_wakes.py:112-232): updated traces, coordinates and state of origin -/
def getWakeCoos (E : Env) (c : ℕ) (m : Traces) (p : V3) : Traces × (Option (Option ℝ × ℝ) × ℝ) × ℕ :=
  let m := update E c m
  (m, coos E c m p, nearest c m p)

/-- Evaluations in one process: a list of states at which `get_wake_coos` is called for the turbine, one after the other (every wake model, every
target chunk: sequential.py:194-240, downwind calculation and points) -/
def evals (E : Env) : List ℕ → Traces → Traces
  | [], m => m
  | c :: cs, m => evals E cs (update E c m)

/-- `get_wake_modelling_data` (seq_dynamic_wakes.py:271-300) for one target point: the data of the turbine at the state of wake creation `s`; `stored` are
the farm results by state (`algo.farm_results_downwind`), whose row of the current state `c` is replaced by the current farm data -/
def sourceData (stored : ℕ → ℝ) (cur : ℝ) (c s : ℕ) : ℝ := (Function.update stored c cur) s

end

end Foxes.SeqWakes
