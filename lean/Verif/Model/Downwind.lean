/-
Model of one state of a Downwind farm calculation: the change to downwind order, the wake loop over
the turbines, and the change back to farm order.

 * foxes/algorithms/downwind/models/init_farm_data.py
 * foxes/algorithms/downwind/models/farm_wakes_calc.py
 * foxes/algorithms/downwind/models/reorder_farm_output.py
 * foxes/algorithms/iterative/models/farm_wakes_calc.py
-/
namespace Foxes.Downwind

/-! ### Changing the order of turbines -/

section Order
variable {α : Type}

/-- An array of shape `(n_states, n_turbines)`. -/
abbrev Arr (α : Type) := Nat → Nat → α

/-- numpy's `a[ssel, idx]` where `ssel[s, t] = s` (init_farm_data.py:116-117,124). -/
def gather (a : Arr α) (idx : Arr Nat) : Arr α := fun s t => a s (idx s t)

/-- assignment to one cell of a row -/
def upd (f : Nat → α) (i : Nat) (v : α) : Nat → α := fun j => if j = i then v else f j

/-- `ORDER_INV[ssel, order] = arange(n_turbines)` on zeros (init_farm_data.py:120-121): cell by cell
assignment, the last one wins. -/
def scatterInv (nT : Nat) (order : Arr Nat) : Arr Nat := fun s =>
  (List.range nT).foldl (fun inv t => upd inv (order s t) t) (fun _ => 0)

/-- `np.any(a != a[0, 0, None, None])` (init_farm_data.py:128,132-134, reorder_farm_output.py:81).
`ne` is the elementwise `!=` of the data type; for floats `NaN != NaN` is true. -/
def anyNe (ne : α → α → Bool) (nS nT : Nat) (a : Arr α) : Bool :=
  (List.range nS).any fun s => (List.range nT).any fun t => ne (a s t) (a 0 0)

/-- Applying the downwind order to one variable (init_farm_data.py:127-135; also for model data). -/
def toDownwind (ne : α → α → Bool) (nS nT : Nat) (order : Arr Nat) (a : Arr α) : Arr α :=
  if anyNe ne nS nT a then gather a order else a

/-- ReorderFarmOutput.calculate for one variable of shape `(n_states, cols)`
(reorder_farm_output.py:77-85). -/
def reorderOut (ne : α → α → Bool) (nS cols : Nat) (isOrder : Bool) (orderInv : Arr Nat) (a : Arr α) : Arr α :=
  if !isOrder && decide (cols > 1) && anyNe ne nS cols a then gather a orderInv else a

end Order

/-! ### The wake loop -/

/-- What the loop needs to know about turbines. `P` is what does not change during the loop
(position, hub height, turbine type, ...), `S` is a turbine's column of the farm data, `R` are rotor
point results.

* `init`: the column before the wake calculation, i.e. after the ambient rotor and controller run
* `amb`: ambient rotor point results (`AMB_ROTOR_RES`)
* `plus`: `hres[v] += d` (farm_wakes_calc.py:93-95)
* `eval`: `rotor.eval_rpoint_results` and `farm_controller.calculate` for one turbine
  (farm_wakes_calc.py:98-105), which write only that turbine's column. -/
structure Farm (P S R : Type) where
  init : P → S
  amb : P → R
  plus : R → R → R
  eval : P → R → S → S

/-- One wake model together with its partial wakes and ground model. `A` are the wake deltas at one
target.

* `acc0`: new_farm_wake_deltas, `add`: contribute_to_farm_wakes (source, source column, target),
* `fin`: finalize_farm_wakes (target, ambient results of the target, deltas)
* `down`: affects_downwind

Simplification: a contribution depends on the farm data of the source turbine only, which is how
`get_wake_modelling_data` (core/wake_frame.py:147-158) provides them; frames that look at earlier
states (dynamic wakes) are not covered. -/
structure Wake (P S A R : Type) where
  acc0 : P → A
  add : P → S → P → A → A
  fin : P → R → A → R
  down : Bool

variable {P S A R : Type}

/-- farm data columns, accumulated rotor results `wake_res` and the wake deltas of the running model,
all in downwind order -/
structure St (S A R : Type) where
  fd : Nat → S
  wres : Nat → R
  wd : Nat → A

/-- `_evaluate` (farm_wakes_calc.py:81-105). `hres[v]` is a view on `wake_res[:, oi]`, so the in-place
addition changes `wake_res`. -/
def evalAt (c : Farm P S R) (w : Wake P S A R) (pos : Nat → P) (oi : Nat) (st : St S A R) : St S A R :=
  let r := c.plus (st.wres oi) (w.fin (pos oi) (c.amb (pos oi)) (st.wd oi))
  { st with wres := upd st.wres oi r, fd := upd st.fd oi (c.eval (pos oi) r (st.fd oi)) }

/-- contribution of turbine `oi` to the targets selected by `sel` (`np.s_[:, oi + 1 :]` or
`np.s_[:, :oi]`); slices are views, so the deltas are changed in place -/
def contribAt (w : Wake P S A R) (pos : Nat → P) (oi : Nat) (sel : Nat → Bool) (st : St S A R) : St S A R :=
  { st with wd := fun j => if sel j then w.add (pos oi) (st.fd oi) (pos j) (st.wd j) else st.wd j }

/-- loop body for a downwind wake model (farm_wakes_calc.py:122-142) -/
def stepDown (c : Farm P S R) (w : Wake P S A R) (pos : Nat → P) (n : Nat) (st : St S A R) (oi : Nat) : St S A R :=
  let st := if oi > 0 then evalAt c w pos oi st else st
  if oi + 1 < n then contribAt w pos oi (fun j => decide (oi + 1 ≤ j ∧ j < n)) st else st

/-- loop body for an upwind wake model (farm_wakes_calc.py:147-167) -/
def stepUp (c : Farm P S R) (w : Wake P S A R) (pos : Nat → P) (n : Nat) (st : St S A R) (oi : Nat) : St S A R :=
  let st := if oi + 1 < n then evalAt c w pos oi st else st
  if oi > 0 then contribAt w pos oi (fun j => decide (j < oi)) st else st

/-- one wake model: fresh deltas, then the loop over the turbines (farm_wakes_calc.py:111-167) -/
def pass (c : Farm P S R) (w : Wake P S A R) (pos : Nat → P) (n : Nat) (fd : Nat → S) (wres : Nat → R) :
    St S A R :=
  let st : St S A R := { fd := fd, wres := wres, wd := fun j => w.acc0 (pos j) }
  if w.down then (List.range n).foldl (stepDown c w pos n) st
  else (List.range n).reverse.foldl (stepUp c w pos n) st

inductive Err
  | keyError     -- farm_wakes_calc.py:170-172
deriving DecidableEq, Repr

/-- the loop over the wake models (farm_wakes_calc.py:111-172). `seen` are the directions met so
far (downwind, upwind). -/
def passes (c : Farm P S R) (pos : Nat → P) (n : Nat) :
    List (Wake P S A R) → Bool → Bool → (Nat → S) → (Nat → R) → Except Err ((Nat → S) × (Nat → R))
  | [], _, _, fd, wres => .ok (fd, wres)
  | w :: ws, sd, su, fd, wres =>
      let st := pass c w pos n fd wres
      let sd := sd || w.down
      let su := su || !w.down
      if sd && su then .error .keyError else passes c pos n ws sd su st.fd st.wres

/-- FarmWakesCalculation.calculate of the Downwind algorithm, starting from the ambient results -/
def farmWakes (c : Farm P S R) (ws : List (Wake P S A R)) (pos : Nat → P) (n : Nat) : Except Err (Nat → S) :=
  (passes c pos n ws false false (fun j => c.init (pos j)) (fun j => c.amb (pos j))).map (·.1)

/-- One state of `Downwind.calc_farm`: the farm's turbines `a` (in farm order) are put into the
order given by `order`, the wakes are calculated, and the result is put back
(downwind.py:436-468). -/
def calcFarm (c : Farm P S R) (ws : List (Wake P S A R)) (n : Nat) (order : Nat → Nat) (a : Nat → P) :
    Except Err (Nat → S) :=
  match farmWakes c ws (fun p => a (order p)) n with
  | .error e => .error e
  | .ok fd => .ok (fun t => fd (scatterInv n (fun _ => order) 0 t))

/-! ### The iterative algorithm's sweep -/

/-- deltas of one wake model in one sweep: for every source, all other turbines are targets
(iterative/models/farm_wakes_calc.py:117-135) -/
def sweepDeltas (w : Wake P S A R) (pos : Nat → P) (n : Nat) (fd : Nat → S) : Nat → A :=
  (List.range n).foldl
    (fun wd oi =>
      let wd := if oi > 0 then
          (fun j => if j < oi then w.add (pos oi) (fd oi) (pos j) (wd j) else wd j) else wd
      if oi + 1 < n then
          (fun j => if oi + 1 ≤ j ∧ j < n then w.add (pos oi) (fd oi) (pos j) (wd j) else wd j) else wd)
    (fun j => w.acc0 (pos j))

/-- one sweep without under-relaxation (iterative/models/farm_wakes_calc.py:111-161): the deltas of
all wake models are added to a fresh copy of the ambient results, then all turbines are evaluated -/
def sweep (c : Farm P S R) (ws : List (Wake P S A R)) (pos : Nat → P) (n : Nat) (fd : Nat → S) : Nat → S :=
  let wres := ws.foldl (fun (wres : Nat → R) w =>
      let wd := sweepDeltas w pos n fd
      fun j => if j < n then c.plus (wres j) (w.fin (pos j) (c.amb (pos j)) (wd j)) else wres j)
    (fun j => c.amb (pos j))
  fun j => if j < n then c.eval (pos j) (wres j) (fd j) else fd j

/-- farm data after `k` sweeps, starting from the ambient columns (iterative.py:298-304) -/
def sweeps (c : Farm P S R) (ws : List (Wake P S A R)) (pos : Nat → P) (n : Nat) : Nat → Nat → S
  | 0 => fun j => c.init (pos j)
  | k + 1 => sweep c ws pos n (sweeps c ws pos n k)

end Foxes.Downwind
