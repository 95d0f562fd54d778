import Verif.Model.OnePoint
import Verif.Model.Frames
/-
Model of the wake frame Timelines (foxes/models/wake_frames/timelines.py:284-507): wake coordinates and centreline points for one state, one
wake causing turbine and one point. Real numbers replace doubles; a calm state gives NaN in the code, for which all comparisons fail; here it
gives zero, for which they fail, too. The displacements are those of `_precalc_data` (Verif/Model/OnePoint.lean).
-/
namespace Foxes.Timelines
open Foxes.OnePoint Foxes.Frames

noncomputable section
open scoped Classical

/-- the arrays of the search, at one point: `trace_p`, `trace_l`, `trace_d` (`none` is infinity), `h_trace_si`; and what is known of the wake
coordinates x, y and the state that causes the wake -/
structure Trace where
  p : V2
  l : ℝ
  d : Option ℝ
  si : ℕ
  res : Option (ℝ × ℝ × ℕ)

/-- `ny` (timelines.py:394) -/
def perp (n : V2) : V2 := (-n.2, n.1)

/-- `d <= trace_d` -/
def closer (d : ℝ) : Option ℝ → Bool
  | none => true
  | some d0 => decide (d ≤ d0)

/-- `_update_wcoos` (timelines.py:377-399) -/
def update (dxy : ℕ → V2) (t : Trace) : Trace :=
  let d := nrm t.p
  if closer d t.d then
    let dx := nrm (dxy t.si)
    let nx := unit (dxy t.si)
    let projx := dot t.p nx
    if -dx < projx ∧ projx < dx then { t with d := some d, res := some (projx + t.l, dot t.p (perp nx), t.si) }
    else { t with d := some d }
  else t

/-- the loop backwards in time (timelines.py:402-420); the first argument is `h_trace_si` -/
def loop (dxy : ℕ → V2) (maxLen : ℝ) : ℕ → Trace → Trace
  | 0, t => t
  | k + 1, t =>
      if t.l < maxLen then
        loop dxy maxLen k (update dxy { t with si := k, p := t.p - dxy k, l := t.l + nrm (dxy k) })
      else t

/-- the search for one height (timelines.py:367-421), from state `s` on -/
def search (dxy : ℕ → V2) (maxLen : ℝ) (s : ℕ) (p : V2) : Option (ℝ × ℝ × ℕ) :=
  (loop dxy maxLen s (update dxy { p := p, l := 0, d := none, si := s, res := none })).res

/-- the loop over heights (timelines.py:367-421): only the height of the turbine is searched -/
def heightLoop (maxLen : ℝ) (th : ℝ) (p : V2) : List (ℝ × (ℕ → V2)) → Option (ℝ × ℝ × ℕ) → ℕ → Option (ℝ × ℝ × ℕ)
  | [], res, _ => res
  | (h, dxy) :: hs, res, si =>
      if th = h then
        match search dxy maxLen si p with
        | some r => heightLoop maxLen th p hs (some r) r.2.2
        | none => heightLoop maxLen th p hs res si
      else heightLoop maxLen th p hs res si

/-- `get_wake_coos` (timelines.py:341-436) for local state `i` of a chunk that starts with state `i0`: wake coordinates, and the state that
causes the wake. `hub` is the `TXYH` entry, `th` the `H` entry of the wake causing turbine. -/
def wakeCoos (maxLen : ℝ) (heights : List (ℝ × (ℕ → V2))) (hub : V3) (th : ℝ) (i0 i : ℕ) (q : V3) : V3 × ℕ :=
  match heightLoop maxLen th (q.x - hub.x, q.y - hub.y) heights none (i0 + i) with
  | some (x, y, s) => (⟨x, y, q.z - hub.z⟩, min s (i0 + i))
  | none => (⟨1e20, 1e20, q.z - hub.z⟩, i0 + i)

/-- the loop of `get_centreline_points` (timelines.py:473-489) at one point, from state `k` on: `trace_si`, `trace_l`, `trace_dp` -/
def clLoop (dxy : ℕ → V2) : ℕ → ℝ → V2 → ℤ × ℝ × V2
  | k, l, dp =>
      if 0 < l then
        let dl := nrm (dxy k)
        let c := |l - dl| < |l|
        let l' := if c then l - dl else l
        let dp' := if c then dp + dxy k else dp
        match k with
        | 0 => (-1, l', dp')
        | k + 1 => clLoop dxy k l' dp'
      else (k, l, dp)

/-- the last part of `get_centreline_points` (timelines.py:491-498) for `n` states in total; outer `none`: IndexError, inner `none`: NaN -/
def clEnd (dxy : ℕ → V2) (n : ℕ) (r : ℤ × ℝ × V2) : Option (Option V2) :=
  let si := (r.1 + 1).toNat
  if si < n then
    let d := dxy si
    let dl := nrm d
    some (if |r.2.1| < 2 * dl then some (r.2.2.1 - r.2.1 / dl * d.1, r.2.2.2 - r.2.1 / dl * d.2) else none)
  else none

/-- `get_centreline_points` (timelines.py:438-507) at the height of the turbine, for local state `i` of a chunk that starts with state `_i0`
(`trace_si` starts with `np.arange(n_states)`, the first state of the chunk is not added); `n` is the number of all states -/
def centreline (dxy : ℕ → V2) (n : ℕ) (hub : V3) (_i0 i : ℕ) (x : ℝ) : Option (Option V3) :=
  match clEnd dxy n (clLoop dxy i x (0, 0)) with
  | none => none
  | some none => some none
  | some (some d) => some (some ⟨hub.x + d.1, hub.y + d.2, hub.z⟩)

end

end Foxes.Timelines
