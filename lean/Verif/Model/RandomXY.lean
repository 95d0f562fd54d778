import Mathlib.Data.Real.Basic
import Mathlib.Analysis.Real.Sqrt
import Mathlib.Algebra.BigOperators.Group.List.Basic
/-
Model of random layouts: random_xy_square (foxes/utils/random_xy.py) and add_random (foxes/input/farm_layout/from_random.py).
Real numbers replace doubles; the generator of numpy is a parameter.
-/
namespace Foxes.RandomXY

noncomputable section
open scoped Classical

/-- A random number generator with global state `σ`: `seed` is `np.random.seed`, `draw s x k` is `np.random.uniform(0, x, (k, 2))`. -/
structure Rng (σ : Type) where
  seed : ℕ → σ
  draw : σ → ℝ → ℕ → List (ℝ × ℝ) × σ

/-- what numpy promises of `uniform(0, x, (k, 2))` for `0 ≤ x` -/
def Rng.Ok {σ : Type} (g : Rng σ) : Prop :=
  ∀ s x k, (g.draw s x k).1.length = k ∧ (0 ≤ x → ∀ p ∈ (g.draw s x k).1, 0 ≤ p.1 ∧ p.1 ≤ x ∧ 0 ≤ p.2 ∧ p.2 ≤ x)

/-- distance of two points (`cdist`, random_xy.py:47) -/
def pdist (p q : ℝ × ℝ) : ℝ := Real.sqrt ((p.1 - q.1) ^ 2 + (p.2 - q.2) ^ 2)

/-- Is point `i` too close to another point? (random_xy.py:47-49; the diagonal is set to infinity) -/
def TooClose (d : ℝ) (xy : List (ℝ × ℝ)) (i : ℕ) : Prop := ∃ j, j ≠ i ∧ ∃ p q, xy[i]? = some p ∧ xy[j]? = some q ∧ pdist p q < d

/-- `sel` (random_xy.py:49): sorted numbers of points that are too close to others -/
def sel (d : ℝ) (xy : List (ℝ × ℝ)) : List ℕ := (List.range xy.length).filter (fun i => decide (TooClose d xy i))

/-- `xy[sel] = new` (random_xy.py:55) -/
def assign (xy : List (ℝ × ℝ)) : List ℕ → List (ℝ × ℝ) → List (ℝ × ℝ)
  | i :: is, p :: ps => assign (xy.set i p) is ps
  | _, _ => xy

/-- the loop (random_xy.py:46-55) with at most `fuel` passes; `none`: not yet ended. Returns the points, the size and the state of the generator. -/
def loop {σ : Type} (g : Rng σ) (d growth : ℝ) : ℕ → List (ℝ × ℝ) → ℝ → σ → Option (List (ℝ × ℝ) × ℝ × σ)
  | 0, _, _, _ => none
  | fuel + 1, xy, xmax, s =>
      if sel d xy = [] then some (xy, xmax, s)
      else
        let r := g.draw s (xmax * growth) (sel d xy).length
        loop g d growth fuel (assign xy (sel d xy) r.1) (xmax * growth) r.2

/-- `np.mean(xy, axis=0)` -/
def mean (xy : List (ℝ × ℝ)) : ℝ × ℝ := ((xy.map Prod.fst).sum / xy.length, (xy.map Prod.snd).sum / xy.length)

/-- `if seed: np.random.seed(seed)` (random_xy.py:41-42): no effect for `None` and for 0 -/
def seeded {σ : Type} (g : Rng σ) (seed : Option ℕ) (s : σ) : σ :=
  match seed with
  | some k => if k = 0 then s else g.seed k
  | none => s

/-- `random_xy_square` (random_xy.py:5-56) with at most `fuel` passes, in generator state `s` -/
def randomXY {σ : Type} (g : Rng σ) (n : ℕ) (d : ℝ) (xmaxIni : Option ℝ) (growth : ℝ) (seed : Option ℕ) (fuel : ℕ) (s : σ) : Option (List (ℝ × ℝ)) :=
  let s0 := seeded g seed s
  let xmax := xmaxIni.getD (Real.sqrt n * d)
  let r := g.draw s0 xmax n
  (loop g d growth fuel r.1 xmax r.2).map (fun o => o.1.map (fun p => (p.1 - (mean o.1).1, p.2 - (mean o.1).2)))

/-- the positions of `add_random` (from_random.py:39-40), which calls `random_xy_square` with its default growth -/
def addRandomXY {σ : Type} (g : Rng σ) (n : ℕ) (d : ℝ) (centre : ℝ × ℝ) (seed : Option ℕ) (fuel : ℕ) (s : σ) : Option (List (ℝ × ℝ)) :=
  (randomXY g n d none (102 / 100) seed fuel s).map (fun xy => xy.map (fun p => (p.1 + centre.1, p.2 + centre.2)))

end

end Foxes.RandomXY
