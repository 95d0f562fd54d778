import Mathlib.Data.Real.Basic
/-
Model of `foxes/output/animation.py` (Animator) and `foxes/output/seq_plugins/seq_wake_debug_plugin.py` (SeqWakeDebugPlugin).

Simplifications: generators are finite and independent of each other, so a generator is the list of what it still yields; real numbers; artists are what is asked from matplotlib.
-/
namespace Foxes.Anim

inductive Err
  | value | unbound | index
deriving DecidableEq, Repr

/-- what a generator yields: a pair of figure and artists, or something of another length -/
inductive Yield (F A : Type)
  | pair (fig : F) (artists : List A)
  | other

abbrev Gen (F A : Type) := List (Yield F A)

variable {F A : Type} [DecidableEq F]

/-- one pass over the generators (animation.py:84-104): the generators afterwards, the figure of the animator, whether the local name `fig` is bound, the artists -/
def frame : List (Gen F A) → Option F → Bool → Except Err (List (Gen F A) × Option F × Bool × List A)
  | [], fig, bound => .ok ([], fig, bound, [])
  | [] :: gs, fig, bound =>
    match frame gs fig bound with
    | .error e => .error e
    | .ok r => .ok ([] :: r.1, r.2)
  | (.other :: _) :: _, _, _ => .error .value
  | (.pair f as :: g) :: gs, fig, _ =>
    if fig.isSome ∧ fig ≠ some f then .error .value
    else match frame gs (some f) true with
      | .error e => .error e
      | .ok (gs', fig', b', as') => .ok (g :: gs', fig', b', as ++ as')

/-- all that the generators still yield -/
def total (gs : List (Gen F A)) : ℕ := (gs.map List.length).sum

/-- the loop (animation.py:79-112): frames until one is empty. Each frame that is not empty takes something from a generator, so that `n = total + 1` passes are enough -/
def loop : ℕ → List (Gen F A) → Option F → Bool → Except Err (List (Gen F A) × Option F × Bool × List (List A))
  | 0, gs, fig, bound => .ok (gs, fig, bound, [])
  | n + 1, gs, fig, bound =>
    match frame gs fig bound with
    | .error e => .error e
    | .ok (gs', fig', b', as) =>
      if as.isEmpty then .ok (gs', fig', b', [])
      else match loop n gs' fig' b' with
        | .error e => .error e
        | .ok (gs2, fig2, b2, fs) => .ok (gs2, fig2, b2, as :: fs)

/-- `animate` (animation.py:55-119): none without generators; the generators afterwards, and the frames. At the end the local name `fig` is used -/
def animate (gs : List (Gen F A)) (fig : Option F) : Except Err (List (Gen F A) × Option (List (List A))) :=
  if gs.isEmpty then .ok (gs, none)
  else match loop (total gs + 1) gs fig false with
    | .error e => .error e
    | .ok (gs', _, bound, fs) => if bound then .ok (gs', some fs) else .error .unbound

/-! ### Wake debug plugin -/

/-- a picture element: all points of a turbine, or an arrow from a point by a vector -/
inductive Art
  | points (l : List (ℝ × ℝ))
  | arrow (p d : ℝ × ℝ)

/-- what `update` stores (seq_wake_debug_plugin.py:63-96): time step; positions and vectors for each of the states so far and each turbine -/
structure Stored where
  dt : ℝ
  pts : List (List (ℝ × ℝ))
  vec : List (List (ℝ × ℝ))

/-- the time step (seq_wake_debug_plugin.py:88): the last one is used again; `_dt` must not be empty -/
def stepOf (dt : List ℝ) (counter : ℕ) : Except Err ℝ :=
  match (if counter < dt.length then dt[counter]? else dt.getLast?) with
  | none => .error .index
  | some x => .ok x

/-- `update` (seq_wake_debug_plugin.py:63-96): adds the traces up to the current state -/
def update (dt : List ℝ) (counter : ℕ) (pts vec : List (List (ℝ × ℝ))) (data : List Stored) : Except Err (List Stored) :=
  match stepOf dt counter with
  | .error e => .error e
  | .ok x => .ok (data ++ [⟨x, pts.take (counter + 1), vec.take (counter + 1)⟩])

/-- the artists of one image (seq_wake_debug_plugin.py:113-143) -/
def image (showP showV : Bool) (nt : ℕ) (s : Stored) : List Art :=
  (if showP then (List.range nt).map fun j => .points (s.pts.map fun row => row.getD j (0, 0)) else []) ++
  (if showV then (List.range nt).flatMap fun j => (List.range s.pts.length).map fun i =>
      let p := (s.pts.getD i []).getD j (0, 0)
      let v := (s.vec.getD i []).getD j (0, 0)
      .arrow p (v.1 * s.dt, v.2 * s.dt) else [])

/-- `gen_images` (seq_wake_debug_plugin.py:98-145), run to its end: the data is taken out, so that nothing is left -/
def images (F : Type) (fig : F) (showP showV : Bool) (nt : ℕ) (data : List Stored) : Gen F Art × List Stored :=
  (data.map fun s => .pair fig (image showP showV nt s), [])

end Foxes.Anim
