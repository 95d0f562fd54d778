import Mathlib.Analysis.Complex.Norm
import Mathlib.Data.EReal.Basic
import Mathlib.Analysis.Real.Sqrt
/-
Model of area geometries: foxes/utils/geom2d/{area_geometry,circle,half_plane,polygon}.py. The plane is `ℂ` (x = re, y = im), whose norm
is the Euclidean one; distances are extended reals, since an empty union has distance `inf`. One point is evaluated at a time
(numpy evaluates an array of points elementwise), except in `circleNearest`, where the points of one call interact.
Which points are inside of a polygon is decided by matplotlib and is a parameter here.
-/
namespace Foxes.Geom2d

noncomputable section
open scoped Classical

/-- scalar product, `np.einsum("pd,d->p", ...)` -/
def dot (a b : ℂ) : ℝ := a.re * b.re + a.im * b.im

/-- Geometry objects. `half c n` has the normalised vector `n` of the constructor (half_plane.py:36-38), `poly` the points given to the
constructor and matplotlib's answer, `inv g` is `InvertedAreaGeometry(g)` or `InvertedAreaUnion(g)` (which differ in the bounding box only) -/
inductive Geom
  | circle (c : ℂ) (r : ℝ)
  | half (c n : ℂ)
  | poly (pts : List ℂ) (contains : ℂ → Bool)
  | inv (g : Geom)
  | union (gs : List Geom)

/-- `HalfPlane.__init__` (half_plane.py:36-38) -/
def halfPlane (c n : ℂ) : Geom := .half c (n / ‖n‖)

/-! ### points_inside -/

mutual
/-- `points_inside`: circle.py:115-116, half_plane.py:130-132, polygon.py:150, area_geometry.py:330, 521-528 (the shortcut for one
geometry gives the same result) -/
def inside : Geom → ℂ → Bool
  | .circle c r, p => decide (‖p - c‖ ≤ r)
  | .half c n, p => decide (dot (p - c) n ≥ 0)
  | .poly _ contains, p => contains p
  | .inv g, p => !inside g p
  | .union gs, p => insideAny gs p
/-- the loop of `AreaUnion.points_inside` (area_geometry.py:525-528) -/
def insideAny : List Geom → ℂ → Bool
  | [], _ => false
  | g :: gs, p => inside g p || insideAny gs p
end

/-! ### Operations -/

/-- `inverse`: area_geometry.py:205, 380, 585, half_plane.py:176 -/
def inverse : Geom → Geom
  | .half c n => halfPlane c (-n)
  | .inv g => g
  | g => .inv g

/-- `__add__` with a geometry (area_geometry.py:207-213, 587-593) -/
def add : Geom → Geom → Geom
  | .union gs, .union hs => .union (gs ++ hs)
  | .union gs, h => .union (gs ++ [h])
  | g, .union hs => .union (g :: hs)
  | g, h => .union [g, h]

/-- `AreaIntersection(geometries)` (area_geometry.py:691) -/
def inter (gs : List Geom) : Geom := inverse (.union (gs.map inverse))

/-- `__sub__` with a geometry (area_geometry.py:219); with a list it raises (line 217: a list has no `inverse`) -/
def sub (g h : Geom) : Geom := inter [g, inverse h]

/-! ### points_distance -/

/-- vertices with the first repeated at the end (polygon.py:35-38) -/
def closed (pts : List ℂ) : List ℂ :=
  match pts with
  | [] => []
  | a :: l => if (a :: l).getLast? = some a then a :: l else a :: l ++ [a]

/-- one vertex in `argmin` (polygon.py:90-98): the first smallest distance -/
def vertexStep (p : ℂ) (s : EReal × ℂ) (v : ℂ) : EReal × ℂ := if ((‖p - v‖ : ℝ) : EReal) < s.1 then ((‖p - v‖ : ℝ), v) else s

/-- one edge (polygon.py:101-126) -/
def edgeStep (p : ℂ) (s : EReal × ℂ) (e : ℂ × ℂ) : EReal × ℂ :=
  let d := ‖e.2 - e.1‖
  if d > 0 then
    let n := (e.2 - e.1) / d
    let x := dot (p - e.1) n
    if 0 < x ∧ x < d then
      let y := Real.sqrt (max (‖p - e.1‖ ^ 2 - x ^ 2) 0)
      if ((y : ℝ) : EReal) < s.1 then (y, e.1 + x * n) else s
    else s
  else s

/-- the pairs `points[pi], points[pi + 1]` -/
def edges (pts : List ℂ) : List (ℂ × ℂ) := pts.zip pts.tail

/-- `ClosedPolygon.points_distance` (polygon.py:90-133), distance and nearest point (numpy raises if there are no vertices) -/
def polyDist (pts : List ℂ) (p : ℂ) : EReal × ℂ :=
  (edges (closed pts)).foldl (edgeStep p) ((closed pts).dropLast.foldl (vertexStep p) (⊤, 0))

/-- state of the loop in `AreaUnion.points_distance`: `dist`, `nerst`, `pins` (area_geometry.py:471-473) -/
structure U where
  d : EReal
  near : ℂ
  pin : Bool

/-- body of that loop (area_geometry.py:479-499) -/
def ustep (s : U) (d : EReal) (near : ℂ) (ins : Bool) : U :=
  let s := if (!s.pin && !ins && decide (d < s.d)) = true then { s with d := d, near := near } else s
  let s := if (!s.pin && ins) = true then { d := d, near := near, pin := true } else s
  if (s.pin && ins && decide (d > s.d)) = true then { s with d := d, near := near } else s

mutual
/-- `points_distance(return_nearest=True)`: circle.py:83-98 (nearest point of a point at the centre: see `circleNearest`),
half_plane.py:105-113, polygon.py:90-133, area_geometry.py:313, 467-504 (the shortcut for one geometry gives the same result) -/
def pd : Geom → ℂ → EReal × ℂ
  | .circle c r, p => ((|‖p - c‖ - r| : ℝ), c + (p - c) / ‖p - c‖ * r)
  | .half c n, p =>
      let m : ℂ := ⟨-n.im, n.re⟩
      ((|dot (p - c) n| : ℝ), c + dot (p - c) m * m)
  | .poly pts _, p => polyDist pts p
  | .inv g, p => pd g p
  | .union gs, p =>
      let s := uloop gs p { d := ⊤, near := 0, pin := false }
      (s.d, s.near)
/-- the loop of `AreaUnion.points_distance` (area_geometry.py:474-499) -/
def uloop : List Geom → ℂ → U → U
  | [], _, s => s
  | g :: gs, p, s => uloop gs p (ustep s (pd g p).1 (pd g p).2 (inside g p))
end

/-- nearest points of `Circle.points_distance` for the points of one call (circle.py:87-95); `none`: numpy raises. If some point is at
the centre, an array of shape `(k, 2)` is divided by one of shape `(k,)`, where `k` is the number of other points: that works for `k = 1`
and `k = 2` only, and for `k = 2` divides columns, not rows. Line 94 writes to a copy. -/
def circleNearest (c : ℂ) (r : ℝ) (ps : List ℂ) : Option (List ℂ) :=
  let others := ps.filter (fun p => decide (‖p - c‖ > 0))
  if others.length = ps.length then some (ps.map (fun p => c + (p - c) / ‖p - c‖ * r))
  else
    match others with
    | [_] => some (ps.map (fun p => if ‖p - c‖ > 0 then c + (p - c) / ‖p - c‖ * r else c))
    | [a, b] => some (ps.map (fun p => if ‖p - c‖ > 0 then
        c + (⟨(p - c).re / ‖a - c‖, (p - c).im / ‖b - c‖⟩ : ℂ) * r else c))
    | _ => none

/-! ### Bounding boxes -/

/-- `HalfPlane.p_min` (half_plane.py:51-60) -/
def halfMin (c n : ℂ) : EReal × EReal :=
  if ‖n - 1‖ < 1e-13 then ((c.re : ℝ), ⊥)
  else if ‖n - (-1)‖ < 1e-13 then (⊥, ⊥)
  else if ‖n - Complex.I‖ < 1e-13 then (⊥, (c.im : ℝ))
  else (⊥, ⊥)

/-- nodes of a geometry, for the recursion of `pMin` -/
def size : Geom → ℕ
  | .inv g => size g + 1
  | .union gs => sizes gs + 1
  | _ => 1
where
  /-- of a list -/
  sizes : List Geom → ℕ
    | [] => 0
    | g :: gs => size g + sizes gs

/-- `np.isinf`, true for both infinities -/
def IsInf (x : EReal) : Prop := x = ⊤ ∨ x = ⊥

/-- the minimum of one coordinate over a list, starting from `inf` -/
def minAll (l : List EReal) : EReal := l.foldl min ⊤

lemma size_inverse (g : Geom) : size (inverse g) ≤ size g + 1 := by
  cases g <;> simp [inverse, halfPlane, size]; omega

lemma size_mem (gs : List Geom) (g : Geom) (h : g ∈ gs) : size g ≤ size.sizes gs := by
  induction gs with
  | nil => simp at h
  | cons a l ih =>
    rw [size.sizes]
    rw [List.mem_cons] at h
    rcases h with rfl | h
    · omega
    · have := ih h; omega

/-- coordinate `di` of `p_min`, `di = false` for x: circle.py:47, half_plane.py:51-60, polygon.py:54, area_geometry.py:252-265, 418-425,
626-642. The minimum over an empty list is `inf` here (in the code an empty union returns None, and no vertices raise). `np.isinf` is true
for both infinities. Both coordinates of the box of an inverted geometry depend on each other (`np.any`), hence the pairs. -/
def pMin (g : Geom) : EReal × EReal :=
  match g with
  | .circle c r => ((c.re - r : ℝ), (c.im - r : ℝ))
  | .half c n => halfMin c n
  | .poly pts _ => (minAll (pts.map (fun v => ((v.re : ℝ) : EReal))), minAll (pts.map (fun v => ((v.im : ℝ) : EReal))))
  | .union gs => (minAll (gs.attach.map (fun g => (pMin g.1).1)), minAll (gs.attach.map (fun g => (pMin g.1).2)))
  | .inv (.union [g]) => pMin (inverse g)
  | .inv (.union gs) =>
      let pmi := pMin (.union gs)
      if ¬ IsInf pmi.1 ∧ ¬ IsInf pmi.2 then (⊥, ⊥)
      else
        let imi := gs.attach.map (fun g => pMin (inverse g.1))
        let co := fun (x : EReal) (l : List EReal) => if IsInf x then minAll (l.filter (fun y => ¬ IsInf y)) else ⊥
        (co pmi.1 (imi.map Prod.fst), co pmi.2 (imi.map Prod.snd))
  | .inv (.inv g) =>
      let pmi := pMin (.inv g)
      if ¬ IsInf pmi.1 ∧ ¬ IsInf pmi.2 then (⊥, ⊥)
      else
        let imi := pMin g
        let co := fun (x y : EReal) => if IsInf x then (if IsInf y then ⊤ else y) else ⊥
        (co pmi.1 imi.1, co pmi.2 imi.2)
  | .inv _ => (⊥, ⊥)
termination_by size g
decreasing_by
  all_goals simp only [size, size.sizes]
  · have := size_mem _ _ g.2; omega
  · have := size_mem _ _ g.2; omega
  · have := size_inverse g; omega
  · omega
  · have := size_mem _ _ g.2; have := size_inverse g.1; omega
  · omega
  · omega

/-- `HalfPlane.p_max` (half_plane.py:72-81) -/
def halfMax (c n : ℂ) : EReal × EReal :=
  if ‖n - 1‖ < 1e-13 then (⊤, ⊤)
  else if ‖n - (-1)‖ < 1e-13 then ((c.re : ℝ), ⊤)
  else if ‖n - Complex.I‖ < 1e-13 then (⊤, ⊤)
  else if ‖n - (-Complex.I)‖ < 1e-13 then (⊤, (c.im : ℝ))
  else (⊤, ⊤)

/-- the maximum of one coordinate over a list, starting from `-inf` -/
def maxAll (l : List EReal) : EReal := l.foldl max ⊥

/-- `p_max`: circle.py:59, half_plane.py:72-81, polygon.py:66, area_geometry.py:277-290, 437-444, 654-670; simplified as `pMin` -/
def pMax (g : Geom) : EReal × EReal :=
  match g with
  | .circle c r => ((c.re + r : ℝ), (c.im + r : ℝ))
  | .half c n => halfMax c n
  | .poly pts _ => (maxAll (pts.map (fun v => ((v.re : ℝ) : EReal))), maxAll (pts.map (fun v => ((v.im : ℝ) : EReal))))
  | .union gs => (maxAll (gs.attach.map (fun g => (pMax g.1).1)), maxAll (gs.attach.map (fun g => (pMax g.1).2)))
  | .inv (.union [g]) => pMax (inverse g)
  | .inv (.union gs) =>
      let pma := pMax (.union gs)
      if ¬ IsInf pma.1 ∧ ¬ IsInf pma.2 then (⊤, ⊤)
      else
        let ima := gs.attach.map (fun g => pMax (inverse g.1))
        let co := fun (x : EReal) (l : List EReal) => if IsInf x then maxAll (l.filter (fun y => ¬ IsInf y)) else ⊤
        (co pma.1 (ima.map Prod.fst), co pma.2 (ima.map Prod.snd))
  | .inv (.inv g) =>
      let pma := pMax (.inv g)
      if ¬ IsInf pma.1 ∧ ¬ IsInf pma.2 then (⊤, ⊤)
      else
        let ima := pMax g
        let co := fun (x y : EReal) => if IsInf x then (if IsInf y then ⊥ else y) else ⊤
        (co pma.1 ima.1, co pma.2 ima.2)
  | .inv _ => (⊤, ⊤)
termination_by size g
decreasing_by
  all_goals simp only [size, size.sizes]
  · have := size_mem _ _ g.2; omega
  · have := size_mem _ _ g.2; omega
  · have := size_inverse g; omega
  · omega
  · have := size_mem _ _ g.2; have := size_inverse g.1; omega
  · omega
  · omega

end

end Foxes.Geom2d
