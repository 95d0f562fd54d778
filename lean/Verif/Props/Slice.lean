import Verif.Model.Slice
import Verif.Props.Frames
import Mathlib.Data.List.Nodup
/-
C65: two dimensional slices through the flow (grids.py, slice_data.py, slices_data.py).
-/
namespace Foxes.Props.Slice
open Foxes.Slice
open Foxes.Frames
open Foxes.WindDir

noncomputable section

/-! ### Specification -/

/-- The point with coordinates `a` and `b` in the plane at `c`. In a horizontal plane these are the map coordinates, in
a vertical plane they are measured along the horizontal axis `axX dir`, the horizontal axis to its left `axY dir`, and upwards. -/
def planePoint : Ori → ℝ → ℝ → ℝ → ℝ → V3
  | .xy, _, a, b, c => ⟨a, b, c⟩
  | .xz, dir, a, b, c => ⟨a * (axX dir).x - c * (axX dir).y, a * (axX dir).y + c * (axX dir).x, b⟩
  | .yz, dir, a, b, c => ⟨c * (axX dir).x - a * (axX dir).y, c * (axX dir).y + a * (axX dir).x, b⟩

/-- The grid consists, for each of the states `ss`, of the points of the plane with coordinates from the arrays `g.a`, `g.b`; the
point number `i * n_b + j` belongs to the entries `i` and `j` of the arrays. -/
def IsGrid (o : Ori) (dir : ℝ) (ss : List St) (g : Grid) : Prop :=
  g.pts.length = ss.length ∧ ∀ row ∈ g.pts, row.length = g.a.length * g.b.length ∧
    ∀ i (hi : i < g.a.length) j (hj : j < g.b.length), row[i * g.b.length + j]? = some (planePoint o dir g.a[i] g.b[j] g.c)

/-- The weight of a state at a point. -/
def wt (fl : Flow) (s : St) (p : V3) : ℝ :=
  match fl.weight with
  | .inl w => w s
  | .inr w => w s p

/-- Number of the entry of a dimension whose coordinate has the requested value. -/
def position (coords : List (String × List ℝ)) (sel : List (String × ℝ)) (dim : String) : Option ℕ := do
  let x ← sel.lookup dim
  let xs ← coords.lookup dim
  xs.findIdx? fun y => decide (y = x)

/-- `ds[v].sel(sel)` for a complete selection: the value of a variable for given values of the coordinates. -/
def atCoords (d : XDs) (v : String) (sel : List (String × ℝ)) : Option ℝ := do
  let w ← d.vars.lookup v
  let idx ← w.dims.mapM (position d.coords sel)
  return w.get idx

/-! ### The grid -/

lemma flatten_length {α : Type} (as bs : List ℝ) (f : ℝ → ℝ → α) : (flatten as bs f).length = as.length * bs.length := by
  induction as with
  | nil => simp [flatten]
  | cons a as ih =>
    have : flatten (a :: as) bs f = bs.map (f a) ++ flatten as bs f := by simp [flatten]
    rw [this, List.length_append, ih, List.length_map, List.length_cons]
    ring

lemma flatten_get {α : Type} (bs : List ℝ) (f : ℝ → ℝ → α) : ∀ (as : List ℝ) (i : ℕ) (hi : i < as.length) (j : ℕ) (hj : j < bs.length),
    (flatten as bs f)[i * bs.length + j]? = some (f as[i] bs[j])
  | [], i, hi, _, _ => by simp at hi
  | a :: as, 0, _, j, hj => by
    have : flatten (a :: as) bs f = bs.map (f a) ++ flatten as bs f := by simp [flatten]
    rw [this, List.getElem?_append_left (by simpa using hj)]
    simp [hj]
  | a :: as, i + 1, hi, j, hj => by
    have : flatten (a :: as) bs f = bs.map (f a) ++ flatten as bs f := by simp [flatten]
    rw [this, List.getElem?_append_right (by simp; nlinarith)]
    have h2 : (i + 1) * bs.length + j - (bs.map (f a)).length = i * bs.length + j := by
      rw [List.length_map, add_mul]; omega
    rw [h2, flatten_get bs f as i (by simpa using hi) j hj]
    simp

lemma axX_unit (dir : ℝ) : (axX dir).x ^ 2 + (axX dir).y ^ 2 = 1 := by
  simp only [axX, wd2uv, wd2wdvec]
  simp

lemma min_le {l : List ℝ} {m x : ℝ} (h : l.min? = some m) (hx : x ∈ l) : m ≤ x :=
  ((List.min?_eq_some_iff (xs := l) (a := m)).1 h).2 x hx

lemma le_max {l : List ℝ} {m x : ℝ} (h : l.max? = some m) (hx : x ∈ l) : x ≤ m :=
  ((List.max?_eq_some_iff (xs := l) (a := m)).1 h).2 x hx

/-- C65: the grid of a horizontal slice consists of the points of the plane with the returned coordinates, the
same for each selected state. -/
theorem C65_grid_xy (sts : List St) (resolution : Option ℝ) (nImg : Option (ℤ × ℤ)) (xmin ymin xmax ymax z : Option ℝ)
    (xspace yspace : ℝ) (sel isel : Option (List ℕ)) (g : Grid)
    (h : gridXY sts resolution nImg xmin ymin xmax ymax z xspace yspace sel isel = some g) (dir : ℝ) :
    ∃ ss, select isel sel sts = some ss ∧ IsGrid .xy dir ss g := by
  simp only [gridXY, Option.bind_eq_bind, Option.bind_eq_some_iff] at h
  obtain ⟨ss, hss, xLo, -, yLo, -, xHi, -, yHi, -, zp, -, n, -, xs, -, ys, -, h⟩ := h
  simp only [pure, Option.some.injEq] at h
  subst h
  refine ⟨ss, hss, by simp, fun row hrow => ?_⟩
  simp only [List.mem_map] at hrow
  obtain ⟨_, _, rfl⟩ := hrow
  exact ⟨flatten_length _ _ _, fun i hi j hj => flatten_get _ _ _ i hi j hj⟩

/-- C65: the grid of a vertical slice along the x axis. -/
theorem C65_grid_xz (sts : List St) (resolution : Option ℝ) (nImg : Option (ℤ × ℤ)) (dir : ℝ) (xmin zmin xmax zmax y : Option ℝ)
    (xspace zspace : ℝ) (sel isel : Option (List ℕ)) (g : Grid)
    (h : gridXZ sts resolution nImg dir xmin zmin xmax zmax y xspace zspace sel isel = some g) :
    ∃ ss, select isel sel sts = some ss ∧ IsGrid .xz dir ss g := by
  simp only [gridXZ, Option.bind_eq_bind, Option.bind_eq_some_iff] at h
  obtain ⟨ss, hss, xLo, -, zLo, -, xHi, -, zHi, -, yp, -, n, -, xs, -, zs, -, h⟩ := h
  simp only [pure, Option.some.injEq] at h
  subst h
  refine ⟨ss, hss, by simp, fun row hrow => ?_⟩
  simp only [List.mem_map] at hrow
  obtain ⟨_, _, rfl⟩ := hrow
  refine ⟨flatten_length _ _ _, fun i hi j hj => ?_⟩
  rw [flatten_get _ _ _ i hi j hj]
  simp only [planePoint, V3.smul, V3.add, axY, axZ, V3.cross, Option.some.injEq, V3.mk.injEq]
  simp only [axX]
  refine ⟨?_, ?_, ?_⟩ <;> ring

/-- C65: the grid of a vertical slice across the x axis. -/
theorem C65_grid_yz (sts : List St) (resolution : Option ℝ) (nImg : Option (ℤ × ℤ)) (dir : ℝ) (ymin zmin ymax zmax x : Option ℝ)
    (yspace zspace : ℝ) (sel isel : Option (List ℕ)) (g : Grid)
    (h : gridYZ sts resolution nImg dir ymin zmin ymax zmax x yspace zspace sel isel = some g) :
    ∃ ss, select isel sel sts = some ss ∧ IsGrid .yz dir ss g := by
  simp only [gridYZ, Option.bind_eq_bind, Option.bind_eq_some_iff] at h
  obtain ⟨ss, hss, xLo, -, zLo, -, xHi, -, zHi, -, yp, -, n, -, xs, -, zs, -, h⟩ := h
  simp only [pure, Option.some.injEq] at h
  subst h
  refine ⟨ss, hss, by simp, fun row hrow => ?_⟩
  simp only [List.mem_map] at hrow
  obtain ⟨_, _, rfl⟩ := hrow
  refine ⟨flatten_length _ _ _, fun i hi j hj => ?_⟩
  rw [flatten_get _ _ _ i hi j hj]
  simp only [planePoint, V3.smul, V3.add, axY, axZ, V3.cross, Option.some.injEq, V3.mk.injEq]
  simp only [axX]
  refine ⟨?_, ?_, ?_⟩ <;> ring

/-- C65: a slice is a true picture of its plane: the distance of two points in space is their distance in the slice. -/
theorem C65_isometry (o : Ori) (dir a b a' b' c : ℝ) :
    ((planePoint o dir a b c).x - (planePoint o dir a' b' c).x) ^ 2 + ((planePoint o dir a b c).y - (planePoint o dir a' b' c).y) ^ 2
      + ((planePoint o dir a b c).z - (planePoint o dir a' b' c).z) ^ 2 = (a - a') ^ 2 + (b - b') ^ 2 := by
  have h := axX_unit dir
  cases o <;> simp only [planePoint]
  · ring
  · linear_combination (a - a') ^ 2 * h
  · linear_combination (a - a') ^ 2 * h

/-- C65: for the default direction 270 the axes are those of the map. -/
theorem C65_direction_west (a b c : ℝ) :
    planePoint .xz 270 a b c = ⟨a, c, b⟩ ∧ planePoint .yz 270 a b c = ⟨c, a, b⟩ := by
  have e : (270 : ℝ) * Real.pi / 180 = Real.pi / 2 + Real.pi := by ring
  have h : axX 270 = ⟨1, 0, 0⟩ := by
    simp only [axX, wd2uv, wd2wdvec, e, Real.sin_add_pi, Real.cos_add_pi]
    simp
  simp [planePoint, h]

/-- C65: the direction is that from which wind along the x axis would come: for direction 0 the x axis points to
the *south* (the documentation says "0 = north"). -/
theorem C65_direction_north (a b c : ℝ) : planePoint .xz 0 a b c = ⟨c, -a, b⟩ := by
  have h : axX 0 = ⟨0, -1, 0⟩ := by simp [axX, wd2uv, wd2wdvec]
  simp [planePoint, h]

/-! ### The rectangle -/

/-- The values of a coordinate of the turbines of the states. -/
def coordSet (ss : List St) (f : Turb → ℝ) : Set ℝ := {x | ∃ s ∈ ss, ∃ t ∈ s.turbs, f t = x}

/-- The lower limit of a coordinate: as given, or the smallest value of the turbines minus the margin. -/
def LowerLimit (ss : List St) (f : Turb → ℝ) (given : Option ℝ) (space lo : ℝ) : Prop :=
  (∀ v, given = some v → lo = v) ∧ (given = none → IsLeast (coordSet ss f) (lo + space))

/-- The upper limit of a coordinate: as given, or the largest value of the turbines plus the margin. -/
def UpperLimit (ss : List St) (f : Turb → ℝ) (given : Option ℝ) (space hi : ℝ) : Prop :=
  (∀ v, given = some v → hi = v) ∧ (given = none → IsGreatest (coordSet ss f) (hi - space))

/-- The lower limit of the height: as given, or the smallest hub height minus the margin, but not above the ground. -/
def LowerHeight (ss : List St) (given : Option ℝ) (space lo : ℝ) : Prop :=
  (∀ v, given = some v → lo = v) ∧ (given = none → ∃ m, IsLeast (coordSet ss Turb.h) m ∧ lo ≤ 0 ∧ lo ≤ m - space ∧ (lo = 0 ∨ lo = m - space))

/-- The coordinate of the plane: as given, or in the middle between the smallest and largest value of the turbines. -/
def Middle (ss : List St) (f : Turb → ℝ) (given : Option ℝ) (c : ℝ) : Prop :=
  (∀ v, given = some v → c = v) ∧ (given = none → ∃ lo hi, IsLeast (coordSet ss f) lo ∧ IsGreatest (coordSet ss f) hi ∧ c - lo = hi - c)

/-- Equidistant coordinates from `lo` to `hi`: one point at `lo`, or the first at `lo`, the last at `hi` and equal steps. -/
def Mesh (lo hi : ℝ) (l : List ℝ) : Prop :=
  (∀ h : 0 < l.length, l[0] = lo) ∧ (∀ h : 1 < l.length, l[l.length - 1] = hi) ∧
    ∃ step, ∀ i (h : i + 1 < l.length), l[i + 1] = l[i] + step

/-- The number of points: as given, or such that the length of the side is up to half a step a multiple of the resolution. -/
def Size (resolution : Option ℝ) (n : Option ℤ) (lo hi : ℝ) (l : List ℝ) : Prop :=
  (resolution = none ↔ n ≠ none) ∧ (∀ k, n = some k → (l.length : ℤ) = k) ∧
    ∀ r, resolution = some r → 0 < r → lo ≤ hi → 0 < l.length ∧ |(hi - lo) - ((l.length : ℝ) - 1) * r| ≤ r / 2

lemma coord_mem {ss : List St} {f : Turb → ℝ} {x : ℝ} : x ∈ (allTurbs ss).map f ↔ x ∈ coordSet ss f := by
  simp only [coordSet, allTurbs, List.mem_map, List.mem_flatMap, Set.mem_ofPred_eq]
  constructor
  · rintro ⟨t, ⟨s, hs, ht⟩, e⟩; exact ⟨s, hs, t, ht, e⟩
  · rintro ⟨s, hs, t, ht, e⟩; exact ⟨t, ⟨s, hs, ht⟩, e⟩

lemma least_of_min {ss : List St} {f : Turb → ℝ} {m : ℝ} (h : ((allTurbs ss).map f).min? = some m) : IsLeast (coordSet ss f) m :=
  ⟨coord_mem.1 (List.min?_mem h), fun _ hx => min_le h (coord_mem.2 hx)⟩

lemma greatest_of_max {ss : List St} {f : Turb → ℝ} {m : ℝ} (h : ((allTurbs ss).map f).max? = some m) : IsGreatest (coordSet ss f) m :=
  ⟨coord_mem.1 (List.max?_mem h), fun _ hx => le_max h (coord_mem.2 hx)⟩

lemma lower_spec {ss : List St} {f : Turb → ℝ} {given : Option ℝ} {space lo : ℝ} (h : lower given ((allTurbs ss).map f) space = some lo) :
    LowerLimit ss f given space lo := by
  cases given with
  | some v => simp [lower] at h; simp [LowerLimit, h]
  | none =>
    simp only [lower, Option.map_eq_some_iff] at h
    obtain ⟨m, hm, rfl⟩ := h
    exact ⟨by simp, fun _ => by simpa using least_of_min hm⟩

lemma upper_spec {ss : List St} {f : Turb → ℝ} {given : Option ℝ} {space hi : ℝ} (h : upper given ((allTurbs ss).map f) space = some hi) :
    UpperLimit ss f given space hi := by
  cases given with
  | some v => simp [upper] at h; simp [UpperLimit, h]
  | none =>
    simp only [upper, Option.map_eq_some_iff] at h
    obtain ⟨m, hm, rfl⟩ := h
    exact ⟨by simp, fun _ => by simpa using greatest_of_max hm⟩

lemma lowerZ_spec {ss : List St} {given : Option ℝ} {space lo : ℝ} (h : lowerZ given ((allTurbs ss).map Turb.h) space = some lo) :
    LowerHeight ss given space lo := by
  cases given with
  | some v => simp [lowerZ] at h; simp [LowerHeight, h]
  | none =>
    simp only [lowerZ, Option.map_eq_some_iff] at h
    obtain ⟨m, hm, rfl⟩ := h
    refine ⟨by simp, fun _ => ⟨m, least_of_min hm, min_le_right _ _, min_le_left _ _, ?_⟩⟩
    rcases min_choice (m - space) 0 with h | h <;> simp [h]

lemma plane_spec {ss : List St} {f : Turb → ℝ} {given : Option ℝ} {c : ℝ} (h : plane given ((allTurbs ss).map f) = some c) :
    Middle ss f given c := by
  cases given with
  | some v =>
    simp [plane, lower, upper] at h
    refine ⟨fun w hw => ?_, by simp⟩
    simp at hw; subst hw; rw [← h]; ring
  | none =>
    simp only [plane, lower, upper, Option.bind_eq_bind, Option.bind_eq_some_iff, Option.map_eq_some_iff] at h
    obtain ⟨_, ⟨lo, hlo, rfl⟩, _, ⟨hi, hhi, rfl⟩, h⟩ := h
    simp only [pure, Option.some.injEq] at h
    refine ⟨by simp, fun _ => ⟨lo, hi, least_of_min hlo, greatest_of_max hhi, ?_⟩⟩
    rw [← h]; ring

lemma linspace_mesh {lo hi : ℝ} {n : ℤ} {l : List ℝ} (h : linspace lo hi n = some l) : Mesh lo hi l ∧ (l.length : ℤ) = n := by
  unfold linspace at h
  split_ifs at h with hn
  simp only [Option.some.injEq] at h
  subst h
  have hn' : ((n.toNat : ℕ) : ℤ) = n := Int.toNat_of_nonneg (by omega)
  refine ⟨⟨fun h => by simp, fun h => ?_, (hi - lo) / ((n : ℝ) - 1), fun i h => ?_⟩, by simpa using hn'⟩
  · simp only [List.length_map, List.length_range] at h
    have hr : ((n.toNat - 1 : ℕ) : ℝ) = (n : ℝ) - 1 := by
      rw [Nat.cast_sub (by omega)]
      have : ((n.toNat : ℕ) : ℝ) = (n : ℝ) := by exact_mod_cast hn'
      rw [this]; simp
    have h1 : (1 : ℝ) < n := by exact_mod_cast (by omega : (1 : ℤ) < n)
    simp only [List.length_map, List.length_range, List.getElem_map, List.getElem_range, hr]
    field_simp [sub_ne_zero.2 h1.ne']
    ring
  · simp only [List.getElem_map, List.getElem_range]
    push_cast
    ring

lemma count_spec {lo hi r : ℝ} (hr : 0 < r) (h : lo ≤ hi) : 1 ≤ count lo hi r ∧ |(hi - lo) - ((count lo hi r : ℝ) - 1) * r| ≤ r / 2 := by
  have h0 : 0 ≤ (hi - lo) / r := div_nonneg (by linarith) hr.le
  have h1 : (0 : ℝ) ≤ (hi - lo) / r + 0.5 := by norm_num; linarith
  have e : count lo hi r = ⌊(hi - lo) / r + 0.5⌋ + 1 := by simp only [count, pyInt, h1, if_true]
  have f1 := Int.floor_le ((hi - lo) / r + 0.5)
  have f2 := Int.lt_floor_add_one ((hi - lo) / r + 0.5)
  have f0 : 0 ≤ ⌊(hi - lo) / r + 0.5⌋ := Int.floor_nonneg.2 h1
  refine ⟨by omega, ?_⟩
  rw [e]
  push_cast
  generalize hk : (⌊(hi - lo) / r + 0.5⌋ : ℝ) = k at *
  have e2 : (hi - lo) = (hi - lo) / r * r := by field_simp
  rw [e2, abs_le]
  norm_num at f1 f2 ⊢
  constructor <;> nlinarith

lemma counts_spec {resolution : Option ℝ} {nImg : Option (ℤ × ℤ)} {aLo aHi bLo bHi : ℝ} {n : ℤ × ℤ} {as bs : List ℝ}
    (h : counts resolution nImg aLo aHi bLo bHi = some n) (ha : linspace aLo aHi n.1 = some as) (hb : linspace bLo bHi n.2 = some bs) :
    (Mesh aLo aHi as ∧ Size resolution (nImg.map Prod.fst) aLo aHi as) ∧ Mesh bLo bHi bs ∧ Size resolution (nImg.map Prod.snd) bLo bHi bs := by
  obtain ⟨ma, la⟩ := linspace_mesh ha
  obtain ⟨mb, lb⟩ := linspace_mesh hb
  rcases resolution with _ | r <;> rcases nImg with _ | k <;> simp only [counts] at h
  · simp at h
  · simp only [Option.some.injEq] at h
    subst h
    exact ⟨⟨ma, by simp, by simp [la], by simp⟩, mb, by simp, by simp [lb], by simp⟩
  · split_ifs at h with hr
    simp only [Option.some.injEq] at h
    subst h
    have key : ∀ {lo hi : ℝ} {l : List ℝ}, (l.length : ℤ) = count lo hi r → 0 < r → lo ≤ hi →
        0 < l.length ∧ |(hi - lo) - ((l.length : ℝ) - 1) * r| ≤ r / 2 := by
      intro lo hi l hl h0 h1
      obtain ⟨c1, c2⟩ := count_spec h0 h1
      have : (l.length : ℝ) = (count lo hi r : ℝ) := by exact_mod_cast hl
      rw [this]
      exact ⟨by omega, c2⟩
    refine ⟨⟨ma, by simp, by simp, ?_⟩, mb, by simp, by simp, ?_⟩
    · intro r' hr'; simp at hr'; subst hr'; exact key la
    · intro r' hr'; simp at hr'; subst hr'; exact key lb
  · simp at h

/-- C65: the horizontal slice covers the rectangle with the given or automatic limits, with the requested number of points or
resolution, at the given height or half way between the lowest and the highest hub. -/
theorem C65_rectangle_xy (sts : List St) (resolution : Option ℝ) (nImg : Option (ℤ × ℤ)) (xmin ymin xmax ymax z : Option ℝ)
    (xspace yspace : ℝ) (sel isel : Option (List ℕ)) (g : Grid) (ss : List St) (hss : select isel sel sts = some ss)
    (h : gridXY sts resolution nImg xmin ymin xmax ymax z xspace yspace sel isel = some g) :
    ∃ xLo xHi yLo yHi, LowerLimit ss Turb.x xmin xspace xLo ∧ UpperLimit ss Turb.x xmax xspace xHi ∧
      LowerLimit ss Turb.y ymin yspace yLo ∧ UpperLimit ss Turb.y ymax yspace yHi ∧ Middle ss Turb.h z g.c ∧
      Mesh xLo xHi g.a ∧ Size resolution (nImg.map Prod.fst) xLo xHi g.a ∧ Mesh yLo yHi g.b ∧ Size resolution (nImg.map Prod.snd) yLo yHi g.b := by
  simp only [gridXY, Option.bind_eq_bind, Option.bind_eq_some_iff] at h
  obtain ⟨ss', hss', xLo, h1, yLo, h2, xHi, h3, yHi, h4, zp, h5, n, hn, xs, hxs, ys, hys, h⟩ := h
  rw [hss] at hss'
  obtain rfl := Option.some.inj hss'
  simp only [pure, Option.some.injEq] at h
  subst h
  obtain ⟨⟨a1, a2⟩, b1, b2⟩ := counts_spec hn hxs hys
  exact ⟨xLo, xHi, yLo, yHi, lower_spec h1, upper_spec h3, lower_spec h2, upper_spec h4, plane_spec h5, a1, a2, b1, b2⟩

/-- Coordinate of a turbine along the horizontal x axis of the slice. -/
def alongX (dir : ℝ) (t : Turb) : ℝ := t.x * (axX dir).x + t.y * (axX dir).y

/-- Coordinate of a turbine along the horizontal axis to the left of the x axis. -/
def alongY (dir : ℝ) (t : Turb) : ℝ := t.y * (axX dir).x - t.x * (axX dir).y

lemma dot_X (dir : ℝ) : (fun t : Turb => t.pos.dot (axX dir)) = alongX dir := by
  funext t; simp [alongX, Turb.pos, V3.dot, axX]
lemma dot_Y (dir : ℝ) : (fun t : Turb => t.pos.dot (axY dir)) = alongY dir := by
  funext t; simp only [alongY, Turb.pos, V3.dot, axY, axZ, V3.cross, axX]; ring
lemma dot_Z : (fun t : Turb => t.pos.dot axZ) = Turb.h := by
  funext t; simp [Turb.pos, V3.dot, axZ]

/-- C65: the coordinates of the slice are the positions of the turbines: the point of the plane with the coordinates of a turbine is the hub. -/
theorem C65_turbine_in_slice (dir : ℝ) (t : Turb) :
    planePoint .xz dir (alongX dir t) t.h (alongY dir t) = ⟨t.x, t.y, t.h⟩ ∧
      planePoint .yz dir (alongY dir t) t.h (alongX dir t) = ⟨t.x, t.y, t.h⟩ := by
  have h := axX_unit dir
  simp only [planePoint, alongX, alongY, V3.mk.injEq, and_true]
  refine ⟨⟨?_, ?_⟩, ?_, ?_⟩
  · linear_combination t.x * h
  · linear_combination t.y * h
  · linear_combination t.x * h
  · linear_combination t.y * h

/-- C65: the same for vertical slices along the x axis. -/
theorem C65_rectangle_xz (sts : List St) (resolution : Option ℝ) (nImg : Option (ℤ × ℤ)) (dir : ℝ) (xmin zmin xmax zmax y : Option ℝ)
    (xspace zspace : ℝ) (sel isel : Option (List ℕ)) (g : Grid) (ss : List St) (hss : select isel sel sts = some ss)
    (h : gridXZ sts resolution nImg dir xmin zmin xmax zmax y xspace zspace sel isel = some g) :
    ∃ xLo xHi zLo zHi, LowerLimit ss (alongX dir) xmin xspace xLo ∧ UpperLimit ss (alongX dir) xmax xspace xHi ∧
      LowerHeight ss zmin zspace zLo ∧ UpperLimit ss Turb.h zmax zspace zHi ∧ Middle ss (alongY dir) y g.c ∧
      Mesh xLo xHi g.a ∧ Size resolution (nImg.map Prod.fst) xLo xHi g.a ∧ Mesh zLo zHi g.b ∧ Size resolution (nImg.map Prod.snd) zLo zHi g.b := by
  simp only [gridXZ, Option.bind_eq_bind, Option.bind_eq_some_iff, dot_X, dot_Y, dot_Z] at h
  obtain ⟨ss', hss', xLo, h1, yLo, h2, xHi, h3, yHi, h4, zp, h5, n, hn, xs, hxs, ys, hys, h⟩ := h
  rw [hss] at hss'
  obtain rfl := Option.some.inj hss'
  simp only [pure, Option.some.injEq] at h
  subst h
  obtain ⟨⟨a1, a2⟩, b1, b2⟩ := counts_spec hn hxs hys
  exact ⟨xLo, xHi, yLo, yHi, lower_spec h1, upper_spec h3, lowerZ_spec h2, upper_spec h4, plane_spec h5, a1, a2, b1, b2⟩

/-- C65: the same for vertical slices across the x axis. -/
theorem C65_rectangle_yz (sts : List St) (resolution : Option ℝ) (nImg : Option (ℤ × ℤ)) (dir : ℝ) (ymin zmin ymax zmax x : Option ℝ)
    (yspace zspace : ℝ) (sel isel : Option (List ℕ)) (g : Grid) (ss : List St) (hss : select isel sel sts = some ss)
    (h : gridYZ sts resolution nImg dir ymin zmin ymax zmax x yspace zspace sel isel = some g) :
    ∃ yLo yHi zLo zHi, LowerLimit ss (alongY dir) ymin yspace yLo ∧ UpperLimit ss (alongY dir) ymax yspace yHi ∧
      LowerHeight ss zmin zspace zLo ∧ UpperLimit ss Turb.h zmax zspace zHi ∧ Middle ss (alongX dir) x g.c ∧
      Mesh yLo yHi g.a ∧ Size resolution (nImg.map Prod.fst) yLo yHi g.a ∧ Mesh zLo zHi g.b ∧ Size resolution (nImg.map Prod.snd) zLo zHi g.b := by
  simp only [gridYZ, Option.bind_eq_bind, Option.bind_eq_some_iff, dot_X, dot_Y, dot_Z] at h
  obtain ⟨ss', hss', xLo, h1, yLo, h2, xHi, h3, yHi, h4, zp, h5, n, hn, xs, hxs, ys, hys, h⟩ := h
  rw [hss] at hss'
  obtain rfl := Option.some.inj hss'
  simp only [pure, Option.some.injEq] at h
  subst h
  obtain ⟨⟨a1, a2⟩, b1, b2⟩ := counts_spec hn hxs hys
  exact ⟨xLo, xHi, yLo, yHi, lower_spec h1, upper_spec h3, lowerZ_spec h2, upper_spec h4, plane_spec h5, a1, a2, b1, b2⟩

lemma mesh_get {lo hi : ℝ} {l : List ℝ} (h : Mesh lo hi l) (h1 : 1 < l.length) : ∀ i (hi' : i < l.length),
    l[i] = lo + i * ((hi - lo) / ((l.length : ℝ) - 1)) := by
  obtain ⟨m0, m1, step, ms⟩ := h
  have g : ∀ i (h : i < l.length), l[i] = lo + i * step := by
    intro i
    induction i with
    | zero => intro h; simp [m0 h]
    | succ i ih => intro h; rw [ms i h, ih (by omega)]; push_cast; ring
  have e : hi = lo + ((l.length : ℝ) - 1) * step := by
    rw [← m1 h1, g _ (by omega), Nat.cast_sub h1.le]; simp
  have hp : (0 : ℝ) < (l.length : ℝ) - 1 := by
    have : (1 : ℝ) < l.length := by exact_mod_cast h1
    linarith
  intro i hi'
  rw [g i hi', e]
  field_simp
  ring

/-- C65: every coordinate of the covered interval has a grid coordinate not farther than half a step. -/
theorem C65_near (lo hi : ℝ) (l : List ℝ) (h : Mesh lo hi l) (h1 : 1 < l.length) (x : ℝ) (hx : lo ≤ x ∧ x ≤ hi) :
    ∃ i, ∃ hi' : i < l.length, |x - l[i]| ≤ (hi - lo) / ((l.length : ℝ) - 1) / 2 := by
  have g := mesh_get h h1
  have hp : (0 : ℝ) < (l.length : ℝ) - 1 := by
    have : (1 : ℝ) < l.length := by exact_mod_cast h1
    linarith
  set d := (hi - lo) / ((l.length : ℝ) - 1) with hd
  rcases (show lo ≤ hi by linarith).eq_or_lt with e | e
  · refine ⟨0, by omega, ?_⟩
    rw [g 0 (by omega)]
    have : x = lo := by linarith
    subst this
    simp [hd, e]
  · have hdp : 0 < d := div_pos (by linarith) hp
    have hq0 : 0 ≤ (x - lo) / d := div_nonneg (by linarith) hdp.le
    have hq1 : (x - lo) / d ≤ (l.length : ℝ) - 1 := by
      rw [div_le_iff₀ hdp, hd]
      field_simp
      linarith
    have f1 := Nat.floor_le (show 0 ≤ (x - lo) / d + 1 / 2 by linarith)
    have f2 := Nat.lt_floor_add_one ((x - lo) / d + 1 / 2)
    set k := ⌊(x - lo) / d + 1 / 2⌋₊ with hk
    have hkl : k < l.length := by
      have : (k : ℝ) < l.length := by linarith
      exact_mod_cast this
    refine ⟨k, hkl, ?_⟩
    rw [g k hkl]
    have e2 : x - (lo + k * d) = ((x - lo) / d - k) * d := by field_simp; ring
    rw [e2, abs_mul, abs_of_pos hdp]
    have : |(x - lo) / d - k| ≤ 1 / 2 := by rw [abs_le]; constructor <;> linarith
    nlinarith

/-- C65: the coordinates are strictly increasing if the limits are. -/
theorem C65_increasing (lo hi : ℝ) (l : List ℝ) (h : Mesh lo hi l) (hl : lo < hi) : l.Pairwise (· < ·) := by
  rw [List.pairwise_iff_getElem]
  intro i j hi' hj hij
  have h1 : 1 < l.length := by omega
  rw [mesh_get h h1 i hi', mesh_get h h1 j hj]
  have hp : (0 : ℝ) < (l.length : ℝ) - 1 := by
    have : (1 : ℝ) < l.length := by exact_mod_cast h1
    linarith
  have : 0 < (hi - lo) / ((l.length : ℝ) - 1) := div_pos (by linarith) hp
  have : (i : ℝ) < j := by exact_mod_cast hij
  nlinarith

/-- C65 (false of the code: the slice covers its rectangle): if a side of the rectangle is shorter than half the resolution, the slice
has only one point in that direction, at the lower limit. -/
theorem C65_short_side (lo hi r : ℝ) (hr : 0 < r) (h0 : lo ≤ hi) (h : hi - lo < r / 2) : linspace lo hi (count lo hi r) = some [lo] := by
  have h1 : (hi - lo) / r < 1 / 2 := by rw [div_lt_iff₀ hr]; linarith
  have h2 : 0 ≤ (hi - lo) / r := div_nonneg (by linarith) hr.le
  have h3 : (0 : ℝ) ≤ (hi - lo) / r + 0.5 := by norm_num; linarith
  have e : count lo hi r = 1 := by
    simp only [count, pyInt, h3, if_true]
    have : ⌊(hi - lo) / r + 0.5⌋ = 0 := by rw [Int.floor_eq_iff]; norm_num; constructor <;> linarith
    omega
  rw [e]
  simp [linspace]

/-! ### The values -/

lemma eraseDups_nodup : ∀ l : List String, l.Nodup → l.eraseDups = l
  | [], _ => by simp
  | a :: l, h => by
    rw [List.eraseDups_cons]
    have h' := List.nodup_cons.1 h
    have : l.filter (fun b => !b == a) = l := by
      rw [List.filter_eq_self]
      intro b hb
      have : b ≠ a := fun e => h'.1 (e ▸ hb)
      simpa using this
    rw [this, eraseDups_nodup l h'.2]

lemma mapM_some {α β : Type} (f : α → Option β) (g : α → β) : ∀ l : List α, (∀ a ∈ l, f a = some (g a)) → l.mapM f = some (l.map g)
  | [], _ => by simp
  | a :: l, h => by
      rw [List.mapM_cons, h a (by simp), mapM_some f g l (fun b hb => h b (List.mem_cons_of_mem _ hb))]
      rfl

lemma mapM_none {α β : Type} (f : α → Option β) : ∀ l : List α, (∃ a ∈ l, f a = none) → l.mapM f = none
  | [], h => by simp at h
  | a :: l, h => by
      rw [List.mapM_cons]
      obtain ⟨b, hb, e⟩ := h
      rcases List.mem_cons.1 hb with rfl | hb
      · rw [e]; rfl
      · rw [mapM_none f l ⟨b, hb, e⟩]
        cases f a <;> rfl

lemma lookup_map_key {α β : Type} [DecidableEq β] (key : α → β) {γ : Type} (F : α → γ) : ∀ (l : List α) (v : α), v ∈ l → (∀ w ∈ l, key w = key v → w = v) →
    (l.map fun v => (key v, F v)).lookup (key v) = some (F v)
  | [], v, h, _ => by simp at h
  | a :: l, v, h, hinj => by
    rw [List.map_cons, List.lookup_cons]
    by_cases e : key a = key v
    · have := hinj a (by simp) e
      subst this
      simp
    · have : (key v == key a) = false := by simpa using fun h => e h.symm
      rw [this]
      have hv : v ∈ l := by
        rcases List.mem_cons.1 h with rfl | h
        · exact absurd rfl e
        · exact h
      exact lookup_map_key key F l v hv (fun w hw => hinj w (List.mem_cons_of_mem _ hw))

lemma lookup_map_val {α β : Type} (F : String → α → β) : ∀ (l : List (String × α)) (v : String),
    (l.map fun d => (d.1, F d.1 d.2)).lookup v = (l.lookup v).map (F v)
  | [], v => by simp
  | (k, a) :: l, v => by
    rw [List.map_cons, List.lookup_cons, List.lookup_cons]
    by_cases e : v = k
    · subst e; simp
    · have : (v == k) = false := by simpa using e
      simp only [this]
      exact lookup_map_val F l v

lemma find_nodup : ∀ (l : List ℝ), l.Nodup → ∀ i (h : i < l.length), (l.findIdx? fun y => decide (y = l[i])) = some i := by
  intro l hl i h
  rw [List.findIdx?_eq_some_iff_getElem]
  refine ⟨h, by simp, fun j hj => ?_⟩
  simp only [Bool.not_eq_true, decide_eq_false_iff_not]
  intro e
  have := (List.Nodup.getElem_inj_iff hl).1 e
  omega

/-- C65: without normalization and limits, values are unchanged; otherwise they are divided first, then values outside the limits
are replaced by the limits. -/
theorem C65_values (normV vmin vmax : List (String × ℝ)) (v : String) (x y : ℝ)
    (hy : (normV.lookup v = none ∧ y = x) ∨ ∃ n, normV.lookup v = some n ∧ y = x / n) :
    (vmin.lookup v = none → vmax.lookup v = none → modVal normV vmin vmax v x = y) ∧
    (∀ hi, vmax.lookup v = some hi → modVal normV vmin vmax v x ≤ hi ∧ (vmin.lookup v = none → y ≤ hi → modVal normV vmin vmax v x = y)) ∧
    (∀ lo, vmin.lookup v = some lo → vmax.lookup v = none → lo ≤ modVal normV vmin vmax v x ∧ (lo ≤ y → modVal normV vmin vmax v x = y) ∧
      (y < lo → modVal normV vmin vmax v x = lo)) ∧
    (∀ lo hi, vmin.lookup v = some lo → vmax.lookup v = some hi → lo ≤ hi → lo ≤ modVal normV vmin vmax v x ∧
      (lo ≤ y → y ≤ hi → modVal normV vmin vmax v x = y) ∧ (y < lo → modVal normV vmin vmax v x = lo) ∧ (hi < y → modVal normV vmin vmax v x = hi)) := by
  have e : (normV.lookup v).elim x (x / ·) = y := by
    rcases hy with ⟨h, rfl⟩ | ⟨n, h, rfl⟩ <;> simp [h]
  have e2 : modVal normV vmin vmax v x = (vmax.lookup v).elim ((vmin.lookup v).elim y (max y ·)) (min ((vmin.lookup v).elim y (max y ·)) ·) := by
    simp only [modVal, look, e]
  rw [e2]
  refine ⟨fun h1 h2 => by simp [h1, h2], fun hi h => ⟨by simp [h], fun h1 h2 => by simp [h, h1, h2]⟩, fun lo h1 h2 => ⟨by simp [h1, h2], fun h => by simp [h1, h2, h],
    fun h => by simp [h1, h2, h.le]⟩, fun lo hi h1 h2 h3 => ⟨by simp [h1, h2, h3], fun h4 h5 => by simp [h1, h2, h4, h5], fun h => by simp [h1, h2, h.le, h3], fun h => ?_⟩⟩
  simp only [h1, h2, Option.elim_some]
  rw [max_eq_left (by linarith), min_eq_right h.le]

/-- The rows of point results. -/
def rowsOf (f : St → V3 → ℝ) (ss : List St) (pts : List (List V3)) : List (List ℝ) :=
  List.zipWith (fun s row => row.map (f s)) ss pts

lemma calcPoints_some (fl : Flow) (sts ss : List St) (pts : List (List V3)) (sel isel : Option (List ℕ)) (hss : select isel sel sts = some ss)
    (hl : pts.length = ss.length) :
    calcPoints fl sts pts sel isel = some ⟨ss.map St.label,
      fl.vars.map (fun d => (d.1, Arr.sp (pts.headD []).length (rowsOf d.2 ss pts))) ++
        [(WEIGHT, match fl.weight with
          | .inl w => .s (ss.map w)
          | .inr w => .sp (pts.headD []).length (rowsOf w ss pts))]⟩ := by
  simp only [calcPoints, hss, Option.bind_eq_bind, Option.bind_some, hl, ne_eq, not_true_eq_false, if_false]
  rfl

lemma look_append_left {α : Type} {l r : List (String × α)} {v : String} {a : α} (h : l.lookup v = some a) : (l ++ r).lookup v = some a := by
  induction l with
  | nil => simp at h
  | cons d l ih =>
    obtain ⟨k, b⟩ := d
    rw [List.cons_append, List.lookup_cons]
    rw [List.lookup_cons] at h
    by_cases e : (v == k) = true
    · simp only [e] at h ⊢; exact h
    · simp only [Bool.not_eq_true] at e
      simp only [e] at h ⊢; exact ih h

lemma look_append_right {α : Type} {l r : List (String × α)} {v : String} (h : l.lookup v = none) : (l ++ r).lookup v = r.lookup v := by
  induction l with
  | nil => rfl
  | cons d l ih =>
    obtain ⟨k, b⟩ := d
    rw [List.cons_append, List.lookup_cons]
    rw [List.lookup_cons] at h
    by_cases e : (v == k) = true
    · simp [e] at h
    · simp only [Bool.not_eq_true] at e
      simp only [e] at h ⊢; exact ih h

lemma sum_rows (w f : St → V3 → ℝ) (P : V3) (p : ℕ) : ∀ (ss : List St) (pts : List (List V3)), pts.length = ss.length → (∀ row ∈ pts, row[p]? = some P) →
    List.zipWith (fun (a row : List ℝ) => a.getD p 0 * row.getD p 0) (rowsOf w ss pts) (rowsOf f ss pts) = ss.map fun s => w s P * f s P
  | [], pts, _, _ => by simp [rowsOf]
  | s :: ss, [], h, _ => by simp at h
  | s :: ss, row :: pts, h, hr => by
    have ih := sum_rows w f P p ss pts (by simpa using h) (fun r hr' => hr r (List.mem_cons_of_mem _ hr'))
    have h0 := hr row (by simp)
    simp only [rowsOf] at ih ⊢
    simp only [List.zipWith_cons_cons, List.map_cons, ih]
    congr 1
    simp [List.getD, h0]

lemma sum_rowsS (w : St → ℝ) (f : St → V3 → ℝ) (P : V3) (p : ℕ) : ∀ (ss : List St) (pts : List (List V3)), pts.length = ss.length → (∀ row ∈ pts, row[p]? = some P) →
    List.zipWith (fun (a : ℝ) (row : List ℝ) => a * row.getD p 0) (ss.map w) (rowsOf f ss pts) = ss.map fun s => w s * f s P
  | [], pts, _, _ => by simp
  | s :: ss, [], h, _ => by simp at h
  | s :: ss, row :: pts, h, hr => by
    have ih := sum_rowsS w f P p ss pts (by simpa using h) (fun r hr' => hr r (List.mem_cons_of_mem _ hr'))
    have h0 := hr row (by simp)
    simp only [rowsOf] at ih ⊢
    simp only [List.zipWith_cons_cons, List.map_cons, ih]
    congr 1
    simp [List.getD, h0]

/-- The mean of a variable at all points of the slice. -/
def meanRow (fl : Flow) (f : St → V3 → ℝ) (ss : List St) (pts : List (List V3)) (np : ℕ) : List ℝ :=
  match fl.weight with
  | .inl w => (List.range np).map fun p => (List.zipWith (fun a row => a * row.getD p 0) (ss.map w) (rowsOf f ss pts)).sum
  | .inr w => (List.range np).map fun p => (List.zipWith (fun (a row : List ℝ) => a.getD p 0 * row.getD p 0) (rowsOf w ss pts) (rowsOf f ss pts)).sum

lemma meanRow_length (fl : Flow) (f : St → V3 → ℝ) (ss : List St) (pts : List (List V3)) (np : ℕ) : (meanRow fl f ss pts np).length = np := by
  unfold meanRow; split <;> simp

lemma meanRow_get (fl : Flow) (f : St → V3 → ℝ) (ss : List St) (pts : List (List V3)) (np p : ℕ) (hp : p < np) (P : V3) (hl : pts.length = ss.length)
    (hr : ∀ row ∈ pts, row[p]? = some P) : (meanRow fl f ss pts np)[p]? = some (ss.map fun s => wt fl s P * f s P).sum := by
  unfold meanRow wt
  split
  · rename_i w hw
    rw [List.getElem?_map, List.getElem?_range hp, Option.map_some, sum_rowsS w f P p ss pts hl hr]
  · rename_i w hw
    rw [List.getElem?_map, List.getElem?_range hp, Option.map_some, sum_rows w f P p ss pts hl hr]

lemma head_length {o : Ori} {dir : ℝ} {ss : List St} {g : Grid} (hg : IsGrid o dir ss g) (hne : ss ≠ []) : (g.pts.headD []).length = g.a.length * g.b.length := by
  obtain ⟨hl, hr⟩ := hg
  cases hp : g.pts with
  | nil => rw [hp] at hl; simp at hl; exact absurd hl.symm (by simpa using hne)
  | cons r rs => exact (hr r (by simp [hp])).1

lemma meanData_some (fl : Flow) (sts ss : List St) (o : Ori) (dir : ℝ) (g : Grid) (sel isel : Option (List ℕ)) (hss : select isel sel sts = some ss) (hne : ss ≠ [])
    (hg : IsGrid o dir ss g) (hw : fl.vars.lookup WEIGHT = none) (vs : List String) (hv : ∀ v ∈ vs, v ∈ fl.vars.map Prod.fst) :
    ∃ pr, calcPoints fl sts g.pts sel isel = some pr ∧ pr.states = ss.map St.label ∧
      meanData pr vs = some (vs.map fun v => (v, meanRow fl ((fl.vars.lookup v).getD fun _ _ => 0) ss g.pts (g.a.length * g.b.length))) := by
  refine ⟨_, calcPoints_some fl sts ss g.pts sel isel hss hg.1, rfl, ?_⟩
  have hnone : (fl.vars.map (fun d => (d.1, Arr.sp (g.pts.headD []).length (rowsOf d.2 ss g.pts)))).lookup WEIGHT = none := by
    rw [lookup_map_val (fun _ f => Arr.sp (g.pts.headD []).length (rowsOf f ss g.pts)), hw]; rfl
  simp only [meanData, look, look_append_right hnone, Option.bind_eq_bind]
  simp only [List.lookup_cons, beq_self_eq_true, Option.bind_some]
  apply mapM_some
  intro v hv'
  obtain ⟨f, hf⟩ : ∃ f, fl.vars.lookup v = some f := by
    have := hv v hv'
    rw [List.mem_map] at this
    obtain ⟨d, hd, rfl⟩ := this
    cases h : fl.vars.lookup d.1 with
    | some f => exact ⟨f, rfl⟩
    | none =>
      rw [List.lookup_eq_none_iff] at h
      simpa using h d hd
  have h1 : (fl.vars.map (fun d => (d.1, Arr.sp (g.pts.headD []).length (rowsOf d.2 ss g.pts)))).lookup v = some (Arr.sp (g.pts.headD []).length (rowsOf f ss g.pts)) := by
    rw [lookup_map_val (fun _ f => Arr.sp (g.pts.headD []).length (rowsOf f ss g.pts)), hf]; rfl
  rw [look_append_left h1, hf]
  have hlen : ∀ f, (rowsOf f ss g.pts).length = ss.length := by intro f; simp [rowsOf, hg.1]
  rw [head_length hg hne]
  simp only [Option.bind_some, Option.getD_some, meanRow]
  cases fl.weight <;> simp [einsumS, einsumSP, hlen]

/-- `normalize_x`, `normalize_y`, `normalize_z`: the factor for an axis. -/
def normOf (m : Mods) (axis : String) : Option ℝ :=
  if axis = "x" then m.normX else if axis = "y" then m.normY else m.normZ

/-- A coordinate divided by the factor, if there is one. -/
def scaled (n : Option ℝ) (x : ℝ) : ℝ :=
  match n with
  | none => x
  | some n => x / n

lemma norm_A (m : Mods) (o : Ori) : divBy (m.normA o) = scaled (normOf m o.a) := by
  funext x; cases o <;> simp [Mods.normA, Ori.a, normOf, divBy, scaled] <;> split <;> simp_all

lemma norm_B (m : Mods) (o : Ori) : divBy (m.normB o) = scaled (normOf m o.b) := by
  funext x; cases o <;> simp [Mods.normB, Ori.b, normOf, divBy, scaled] <;> split <;> simp_all

lemma norm_C (m : Mods) (o : Ori) : divBy (m.normC o) = scaled (normOf m o.c) := by
  have h : o.c = match o with | .xy => "z" | .xz => "y" | .yz => "x" := by cases o <;> decide
  funext x; rw [h]; cases o <;> simp [Mods.normC, normOf, divBy, scaled] <;> split <;> simp_all

/-- What the slice functions are called with: a grid for the selected states, variables of the flow, labels that can be told apart. -/
structure Call (fl : Flow) (sts ss : List St) (o : Ori) (dir : ℝ) (g : Grid) (m : Mods) (sel isel : Option (List ℕ)) (vs : List String) : Prop where
  selected : select isel sel sts = some ss
  nonempty : ss ≠ []
  grid : IsGrid o dir ss g
  weight : fl.vars.lookup WEIGHT = none
  vars : ∀ v ∈ vs, v ∈ fl.vars.map Prod.fst
  nodup : vs.Nodup

lemma meanSlice_some {fl : Flow} {sts ss : List St} {o : Ori} {dir : ℝ} {g : Grid} {m : Mods} {sel isel : Option (List ℕ)} {vs : List String}
    (h : Call fl sts ss o dir g m sel isel vs) (fmt : Format) :
    meanSlice fl sts o fmt (some vs) (some g) m sel isel =
      Option.map (fun out => Result.mk out (ss.map St.label) (modGrid o m g)) ((match fmt with
        | .numpy => np2np (g.a.map (scaled (normOf m o.a))) (g.b.map (scaled (normOf m o.b)))
        | .pandas => np2pd o m.labelMap (g.a.map (scaled (normOf m o.a))) (g.b.map (scaled (normOf m o.b)))
        | .xarray => np2xr o m.labelMap (g.a.map (scaled (normOf m o.a))) (g.b.map (scaled (normOf m o.b))) (scaled (normOf m o.c) g.c)
        | .other _ => fun _ => none)
        (vs.map fun v => (v, (meanRow fl ((fl.vars.lookup v).getD fun _ _ => 0) ss g.pts (g.a.length * g.b.length)).map (modVal m.normV m.vmin m.vmax v)))) := by
  obtain ⟨pr, h1, h2, h3⟩ := meanData_some fl sts ss o dir g sel isel h.selected h.nonempty h.grid h.weight vs h.vars
  have hv : varList (some vs) pr = vs := by simp [varList, eraseDups_nodup vs h.nodup]
  simp only [meanSlice, Option.bind_eq_bind, Option.bind_some, h1, hv, h3, h2, List.map_map, Function.comp_def, norm_A, norm_B, norm_C]
  cases fmt <;> simp only [Option.map_eq_bind] <;> rfl

lemma fits_map (na nb : ℕ) (vs : List String) (F : String → List ℝ) (h : ∀ v, (F v).length = na * nb) : fits na nb (vs.map fun v => (v, F v)) = true := by
  simp [fits, h]

lemma scaled_nodup {l : List ℝ} (h : l.Nodup) {n : Option ℝ} (hn : n ≠ some 0) : (l.map (scaled n)).Nodup := by
  apply h.map
  intro x y e
  cases n with
  | none => exact e
  | some n =>
    have : n ≠ 0 := fun h => hn (by rw [h])
    simpa [scaled, div_left_inj' this] using e

lemma cell_mean {fl : Flow} {sts ss : List St} {o : Ori} {dir : ℝ} {g : Grid} {m : Mods} {sel isel : Option (List ℕ)} {vs : List String}
    (h : Call fl sts ss o dir g m sel isel vs) (f : St → V3 → ℝ) (F : ℝ → ℝ) (i : ℕ) (hi : i < g.a.length) (j : ℕ) (hj : j < g.b.length) :
    cell2 g.b.length ((meanRow fl f ss g.pts (g.a.length * g.b.length)).map F) i j
      = F (ss.map fun s => wt fl s (planePoint o dir g.a[i] g.b[j] g.c) * f s (planePoint o dir g.a[i] g.b[j] g.c)).sum := by
  have hp : i * g.b.length + j < g.a.length * g.b.length := by
    have : (i + 1) * g.b.length ≤ g.a.length * g.b.length := Nat.mul_le_mul_right _ hi
    rw [add_mul] at this; omega
  have := meanRow_get fl f ss g.pts _ _ hp (planePoint o dir g.a[i] g.b[j] g.c) h.grid.1 (fun row hr => (h.grid.2 row hr).2 i hi j hj)
  simp [cell2, List.getD, this]

/-- C65: a mean slice in xarray format. At the (normalized) coordinates of each grid point it has, up to normalization and limits, the sum over the
selected states of weight times value at the point of the plane with these coordinates; the data set also tells the coordinate of the plane. -/
theorem C65_mean_xarray {fl : Flow} {sts ss : List St} {o : Ori} {dir : ℝ} {g : Grid} {m : Mods} {sel isel : Option (List ℕ)} {vs : List String}
    (h : Call fl sts ss o dir g m sel isel vs) (ha : g.a.Nodup) (hb : g.b.Nodup) (na : normOf m o.a ≠ some 0) (nb : normOf m o.b ≠ some 0)
    (hlab : lab m.labelMap o.a ≠ lab m.labelMap o.b) :
    ∃ r d, meanSlice fl sts o .xarray (some vs) (some g) m sel isel = some r ∧ r.data = .xarray d ∧ r.states = ss.map St.label ∧
      d.attrs = [(lab m.labelMap o.c, scaled (normOf m o.c) g.c)] ∧
      ∀ v ∈ vs, ∀ f, fl.vars.lookup v = some f → ∀ i (hi : i < g.a.length) j (hj : j < g.b.length),
        atCoords d v [(lab m.labelMap o.a, scaled (normOf m o.a) g.a[i]), (lab m.labelMap o.b, scaled (normOf m o.b) g.b[j])]
          = some (modVal m.normV m.vmin m.vmax v
            (ss.map fun s => wt fl s (planePoint o dir g.a[i] g.b[j] g.c) * f s (planePoint o dir g.a[i] g.b[j] g.c)).sum) := by
  rw [meanSlice_some h]
  simp only [np2xr, List.length_map]
  rw [fits_map _ _ _ _ (fun v => by simp [meanRow_length])]
  refine ⟨_, _, rfl, rfl, rfl, rfl, ?_⟩
  intro v hv f hf i hi j hj
  simp only [atCoords, List.map_map, Function.comp_def]
  rw [lookup_map_key (fun v => v) _ vs v hv (fun w _ e => e)]
  have hba : (lab m.labelMap o.b == lab m.labelMap o.a) = false := by simpa using fun e => hlab e.symm
  have hab : (lab m.labelMap o.a == lab m.labelMap o.b) = false := by simpa using hlab
  have fa := find_nodup _ (scaled_nodup ha na) i (by simpa using hi)
  have fb := find_nodup _ (scaled_nodup hb nb) j (by simpa using hj)
  simp only [List.getElem_map] at fa fb
  simp only [Option.bind_eq_bind, Option.bind_some, List.mapM_cons, List.mapM_nil, position, List.lookup_cons, beq_self_eq_true, hab, hba, fa, fb]
  simp only [pure, Option.bind_some, hf, Option.getD_some]
  rw [cell_mean h f _ i hi j hj]

/-- C65: the same in numpy format: entry `[i, j, k]` belongs to the grid point `(i, j)` and the variable number `k`. -/
theorem C65_mean_numpy {fl : Flow} {sts ss : List St} {o : Ori} {dir : ℝ} {g : Grid} {m : Mods} {sel isel : Option (List ℕ)} {vs : List String}
    (h : Call fl sts ss o dir g m sel isel vs) :
    ∃ r get, meanSlice fl sts o .numpy (some vs) (some g) m sel isel = some r ∧ r.data = .numpy [g.a.length, g.b.length] vs.length get ∧ r.states = ss.map St.label ∧
      ∀ k (hk : k < vs.length), ∀ f, fl.vars.lookup vs[k] = some f → ∀ i (hi : i < g.a.length) j (hj : j < g.b.length),
        get [i, j, k] = modVal m.normV m.vmin m.vmax vs[k]
            (ss.map fun s => wt fl s (planePoint o dir g.a[i] g.b[j] g.c) * f s (planePoint o dir g.a[i] g.b[j] g.c)).sum := by
  rw [meanSlice_some h]
  simp only [np2np, List.length_map]
  rw [fits_map _ _ _ _ (fun v => by simp [meanRow_length])]
  refine ⟨_, _, rfl, rfl, rfl, ?_⟩
  intro k hk f hf i hi j hj
  simp only [List.getElem?_map, List.getElem?_eq_getElem hk, Option.map_some, Option.elim_some, hf, Option.getD_some]
  rw [cell_mean h f _ i hi j hj]

lemma index_get (na nb : ℕ) (F : ℕ → ℕ → List ℕ) (i : ℕ) (hi : i < na) (j : ℕ) (hj : j < nb) :
    ((List.range na).flatMap fun i => (List.range nb).map fun j => F i j)[i * nb + j]? = some (F i j) := by
  have key : ∀ (l : List ℕ) (i : ℕ) (hi : i < l.length), (l.flatMap fun i => (List.range nb).map fun j => F i j)[i * nb + j]? = some (F l[i] j) := by
    intro l
    induction l with
    | nil => intro i hi; simp at hi
    | cons a l ih =>
      intro i hi
      rw [List.flatMap_cons]
      cases i with
      | zero => rw [List.getElem?_append_left (by simpa using hj)]; simp [hj]
      | succ i =>
        rw [List.getElem?_append_right (by simp; nlinarith)]
        have h2 : (i + 1) * nb + j - ((List.range nb).map fun j => F a j).length = i * nb + j := by
          rw [List.length_map, List.length_range, add_mul]; omega
        rw [h2, ih i (by simpa using hi)]
        simp
  have := key (List.range na) i (by simpa using hi)
  simpa using this

/-- C65: the same in pandas format: the row of grid point `(i, j)` has the index `(i, j)` and the value of each variable. -/
theorem C65_mean_pandas {fl : Flow} {sts ss : List St} {o : Ori} {dir : ℝ} {g : Grid} {m : Mods} {sel isel : Option (List ℕ)} {vs : List String}
    (h : Call fl sts ss o dir g m sel isel vs) :
    ∃ r t, meanSlice fl sts o .pandas (some vs) (some g) m sel isel = some r ∧ r.data = .pandas t ∧ r.states = ss.map St.label ∧
      t.names = [lab m.labelMap o.a, lab m.labelMap o.b] ∧ t.cols.map Prod.fst = vs ∧
      ∀ v ∈ vs, ∀ f, fl.vars.lookup v = some f → ∃ col, t.cols.lookup v = some col ∧ ∀ i (hi : i < g.a.length) j (hj : j < g.b.length),
        ∃ k : ℕ, t.index[k]? = some [i, j] ∧ col[k]? = some (modVal m.normV m.vmin m.vmax v
            (ss.map fun s => wt fl s (planePoint o dir g.a[i] g.b[j] g.c) * f s (planePoint o dir g.a[i] g.b[j] g.c)).sum) := by
  rw [meanSlice_some h]
  simp only [np2pd, List.length_map]
  rw [fits_map _ _ _ _ (fun v => by simp [meanRow_length])]
  refine ⟨_, _, rfl, rfl, rfl, rfl, by simp [Function.comp_def], ?_⟩
  intro v hv f hf
  refine ⟨_, lookup_map_key (fun v => v) _ vs v hv (fun w _ e => e), fun i hi j hj => ⟨i * g.b.length + j, index_get _ _ (fun i j => [i, j]) i hi j hj, ?_⟩⟩
  have hp : i * g.b.length + j < g.a.length * g.b.length := by
    have : (i + 1) * g.b.length ≤ g.a.length * g.b.length := Nat.mul_le_mul_right _ hi
    rw [add_mul] at this; omega
  rw [hf, Option.getD_some, List.getElem?_map,
    meanRow_get fl f ss g.pts _ _ hp (planePoint o dir g.a[i] g.b[j] g.c) h.grid.1 (fun row hr => (h.grid.2 row hr).2 i hi j hj)]
  rfl

/-- C65 (false of the code: the mean slice is a mean): a quantity that is the same everywhere and for all states appears in the slice multiplied by the
sum of the weights of the selected states. For a selection of states it is not the mean. -/
theorem C65_mean_constant_partial {fl : Flow} {sts ss : List St} {o : Ori} {dir : ℝ} {g : Grid} {m : Mods} {sel isel : Option (List ℕ)} {vs : List String}
    (h : Call fl sts ss o dir g m sel isel vs) (ha : g.a.Nodup) (hb : g.b.Nodup) (hm : m = {}) (w : St → ℝ) (hw : fl.weight = .inl w) (v : String) (hv : v ∈ vs)
    (c : ℝ) (hc : fl.vars.lookup v = some fun _ _ => c) :
    ∃ r d, meanSlice fl sts o .xarray (some vs) (some g) m sel isel = some r ∧ r.data = .xarray d ∧
      ∀ i (hi : i < g.a.length) j (hj : j < g.b.length), atCoords d v [(o.a, g.a[i]), (o.b, g.b[j])] = some ((ss.map w).sum * c) := by
  subst hm
  have hab : lab ({} : Mods).labelMap o.a ≠ lab ({} : Mods).labelMap o.b := by cases o <;> decide
  obtain ⟨r, d, h1, h2, -, -, h3⟩ := C65_mean_xarray h ha hb (by cases o <;> simp [normOf]) (by cases o <;> simp [normOf]) hab
  refine ⟨r, d, h1, h2, fun i hi j hj => ?_⟩
  have := h3 v hv _ hc i hi j hj
  have e : ∀ axis, scaled (normOf ({} : Mods) axis) = id := by intro axis; funext x; simp [normOf, scaled]
  have e2 : ∀ s, lab ({} : Mods).labelMap s = s := by intro s; rfl
  simp only [e, e2, id] at this
  rw [this]
  simp only [modVal, look, List.lookup_nil, Option.elim_none, wt, hw]
  rw [List.sum_map_mul_right]

/-- C65: for weights with sum 1 over the selected states the mean slice is between the smallest and the largest value. -/
theorem C65_mean_bounds (fl : Flow) (ss : List St) (f : St → V3 → ℝ) (p : V3) (lo hi : ℝ) (hw : ∀ s ∈ ss, 0 ≤ wt fl s p) (h1 : (ss.map fun s => wt fl s p).sum = 1)
    (hf : ∀ s ∈ ss, lo ≤ f s p ∧ f s p ≤ hi) : lo ≤ (ss.map fun s => wt fl s p * f s p).sum ∧ (ss.map fun s => wt fl s p * f s p).sum ≤ hi := by
  have key : ∀ l : List St, (∀ s ∈ l, 0 ≤ wt fl s p) → (∀ s ∈ l, lo ≤ f s p ∧ f s p ≤ hi) →
      (l.map fun s => wt fl s p).sum * lo ≤ (l.map fun s => wt fl s p * f s p).sum ∧ (l.map fun s => wt fl s p * f s p).sum ≤ (l.map fun s => wt fl s p).sum * hi := by
    intro l
    induction l with
    | nil => simp
    | cons s l ih =>
      intro h2 h3
      have := ih (fun t ht => h2 t (List.mem_cons_of_mem _ ht)) (fun t ht => h3 t (List.mem_cons_of_mem _ ht))
      have w0 := h2 s (by simp)
      have f0 := h3 s (by simp)
      simp only [List.map_cons, List.sum_cons]
      constructor <;> nlinarith
  have := key ss hw hf
  rw [h1] at this
  simpa using this

/-- C65 (false of the code: `variables=None` means all variables): with weights that do not depend on the point, the mean slice of all variables fails in every format, since
the weights are among the variables. -/
theorem C65_default_variables_fail {fl : Flow} {sts ss : List St} {o : Ori} {dir : ℝ} {g : Grid} {m : Mods} {sel isel : Option (List ℕ)}
    (h : Call fl sts ss o dir g m sel isel []) (w : St → ℝ) (hw : fl.weight = .inl w) (fmt : Format) :
    meanSlice fl sts o fmt none (some g) m sel isel = none := by
  have hnone : (fl.vars.map (fun d => (d.1, Arr.sp (g.pts.headD []).length (rowsOf d.2 ss g.pts)))).lookup WEIGHT = none := by
    rw [lookup_map_val (fun _ f => Arr.sp (g.pts.headD []).length (rowsOf f ss g.pts)), h.weight]; rfl
  have key : ∀ pr, calcPoints fl sts g.pts sel isel = some pr → meanData pr (varList none pr) = none := by
    intro pr hpr
    rw [calcPoints_some fl sts ss g.pts sel isel h.selected h.grid.1] at hpr
    obtain rfl := Option.some.inj hpr
    have hlook : ∀ {γ : Type} (k : Arr → Option γ), (Option.bind (List.lookup WEIGHT (fl.vars.map (fun d => (d.1, Arr.sp (g.pts.headD []).length (rowsOf d.2 ss g.pts))) ++
        [(WEIGHT, match fl.weight with
          | .inl w => Arr.s (ss.map w)
          | .inr w => .sp (g.pts.headD []).length (rowsOf w ss g.pts))])) k) = k (.s (ss.map w)) := by
      intro γ k
      rw [look_append_right hnone]
      simp [hw]
    simp only [meanData, look, Option.bind_eq_bind]
    rw [hlook]
    apply mapM_none
    refine ⟨WEIGHT, ?_, ?_⟩
    · simp [varList, List.mem_eraseDups]
    · rw [hlook]; rfl
  simp only [meanSlice, Option.bind_eq_bind, Option.bind_some]
  rw [calcPoints_some fl sts ss g.pts sel isel h.selected h.grid.1, Option.bind_some, key _ (calcPoints_some fl sts ss g.pts sel isel h.selected h.grid.1)]
  rfl

/-! ### Slices for each state -/

lemma rows_get (f : St → V3 → ℝ) (P : V3) (p : ℕ) : ∀ (ss : List St) (pts : List (List V3)), pts.length = ss.length → (∀ row ∈ pts, row[p]? = some P) → ∀ k (hk : k < ss.length),
    ((rowsOf f ss pts).getD k []).getD p 0 = f ss[k] P
  | [], _, _, _, k, hk => by simp at hk
  | s :: ss, [], h, _, _, _ => by simp at h
  | s :: ss, row :: pts, h, hr, 0, _ => by
    have h0 := hr row (by simp)
    simp [rowsOf, List.getD, h0]
  | s :: ss, row :: pts, h, hr, k + 1, hk => by
    have := rows_get f P p ss pts (by simpa using h) (fun r hr' => hr r (List.mem_cons_of_mem _ hr')) k (by simpa using hk)
    simpa [rowsOf] using this

lemma getD_map_map (F : ℝ → ℝ) (rows : List (List ℝ)) (k p : ℕ) (hk : k < rows.length) (hp : p < (rows.getD k []).length) :
    ((rows.map fun r => r.map F).getD k []).getD p 0 = F ((rows.getD k []).getD p 0) := by
  have e : (rows.map fun r => r.map F).getD k [] = (rows.getD k []).map F := by simp [List.getD, hk]
  rw [e]
  rw [List.getD_eq_getElem _ _ (by simpa using hp), List.getD_eq_getElem _ _ hp, List.getElem_map]

lemma statesSlice_some {fl : Flow} {sts ss : List St} {o : Ori} {dir : ℝ} {g : Grid} {m : Mods} {sel isel : Option (List ℕ)} {vs : List String}
    (h : Call fl sts ss o dir g m sel isel vs) (fmt : Format) :
    statesSlice fl sts o fmt (some vs) (some g) m sel isel =
      Option.map (fun out => Result.mk out (ss.map St.label) (modGrid o m g)) ((match fmt with
        | .numpy => np2npS (ss.map St.label) (g.a.map (scaled (normOf m o.a))) (g.b.map (scaled (normOf m o.b)))
        | .pandas => np2pdS o m.labelMap (ss.map St.label) (g.a.map (scaled (normOf m o.a))) (g.b.map (scaled (normOf m o.b)))
        | .xarray => np2xrS o m.labelMap (ss.map St.label) (g.a.map (scaled (normOf m o.a))) (g.b.map (scaled (normOf m o.b))) (scaled (normOf m o.c) g.c)
        | .other _ => fun _ => none)
        (vs.map fun v => (v, Arr.sp (g.a.length * g.b.length) ((rowsOf ((fl.vars.lookup v).getD fun _ _ => 0) ss g.pts).map fun (r : List ℝ) => r.map (modVal m.normV m.vmin m.vmax v))))) := by
  have e := calcPoints_some fl sts ss g.pts sel isel h.selected h.grid.1
  rw [head_length h.grid h.nonempty] at e
  have hd : ∀ r, statesData ⟨ss.map St.label, fl.vars.map (fun d => (d.1, Arr.sp (g.a.length * g.b.length) (rowsOf d.2 ss g.pts))) ++ r⟩ vs
      = some (vs.map fun v => (v, Arr.sp (g.a.length * g.b.length) (rowsOf ((fl.vars.lookup v).getD fun _ _ => 0) ss g.pts))) := by
    intro r
    apply mapM_some
    intro v hv'
    obtain ⟨f, hf⟩ : ∃ f, fl.vars.lookup v = some f := by
      have := h.vars v hv'
      rw [List.mem_map] at this
      obtain ⟨d, hd, rfl⟩ := this
      cases h : fl.vars.lookup d.1 with
      | some f => exact ⟨f, rfl⟩
      | none =>
        rw [List.lookup_eq_none_iff] at h
        simpa using h d hd
    have h1 : (fl.vars.map (fun d => (d.1, Arr.sp (g.a.length * g.b.length) (rowsOf d.2 ss g.pts)))).lookup v = some (Arr.sp (g.a.length * g.b.length) (rowsOf f ss g.pts)) := by
      rw [lookup_map_val (fun _ f => Arr.sp (g.a.length * g.b.length) (rowsOf f ss g.pts)), hf]; rfl
    simp only [look, look_append_left h1, hf]
    rfl
  have hv : ∀ pr, varList (some vs) pr = vs := by intro pr; simp [varList, eraseDups_nodup vs h.nodup]
  simp only [statesSlice, Option.bind_eq_bind, Option.bind_some, e, hv, hd, List.map_map, Function.comp_def, norm_A, norm_B, norm_C, Arr.map]
  cases fmt <;> simp only [Option.map_eq_bind] <;> rfl

lemma reshapeS_map (na nb : ℕ) (vs : List String) (F : String → List (List ℝ)) :
    reshapeS na nb (vs.map fun v => (v, Arr.sp (na * nb) (F v))) = some (vs.map fun v => (v, F v)) := by
  rw [reshapeS, mapM_some _ (fun d => (d.1, match d.2 with | .sp _ r => r | .s _ => []))]
  · simp [Function.comp_def]
  · intro d hd
    simp only [List.mem_map] at hd
    obtain ⟨v, -, rfl⟩ := hd
    simp [statesRows]

lemma cell_state {fl : Flow} {sts ss : List St} {o : Ori} {dir : ℝ} {g : Grid} {m : Mods} {sel isel : Option (List ℕ)} {vs : List String}
    (h : Call fl sts ss o dir g m sel isel vs) (f : St → V3 → ℝ) (F : ℝ → ℝ) (k : ℕ) (hk : k < ss.length) (i : ℕ) (hi : i < g.a.length) (j : ℕ) (hj : j < g.b.length) :
    cell2 g.b.length (((rowsOf f ss g.pts).map fun r => r.map F).getD k []) i j = F (f ss[k] (planePoint o dir g.a[i] g.b[j] g.c)) := by
  have hp : i * g.b.length + j < g.a.length * g.b.length := by
    have : (i + 1) * g.b.length ≤ g.a.length * g.b.length := Nat.mul_le_mul_right _ hi
    rw [add_mul] at this; omega
  have hk' : k < g.pts.length := by rw [h.grid.1]; exact hk
  have hl : (rowsOf f ss g.pts).length = ss.length := by simp [rowsOf, h.grid.1]
  have hrow : ((rowsOf f ss g.pts).getD k []).length = g.a.length * g.b.length := by
    rw [List.getD_eq_getElem _ _ (by omega)]
    simp only [rowsOf, List.getElem_zipWith, List.length_map]
    exact (h.grid.2 _ (List.getElem_mem hk')).1
  rw [cell2, getD_map_map F _ k _ (by omega) (by omega),
    rows_get f (planePoint o dir g.a[i] g.b[j] g.c) _ ss g.pts h.grid.1 (fun row hr => (h.grid.2 row hr).2 i hi j hj) k hk]

/-- C65: slices for each state in xarray format: the value at a state and coordinates is that of this state at the point of the plane. Here variables have
the mapped names. -/
theorem C65_states_xarray {fl : Flow} {sts ss : List St} {o : Ori} {dir : ℝ} {g : Grid} {m : Mods} {sel isel : Option (List ℕ)} {vs : List String}
    (h : Call fl sts ss o dir g m sel isel vs) (ha : g.a.Nodup) (hb : g.b.Nodup) (na : normOf m o.a ≠ some 0) (nb : normOf m o.b ≠ some 0)
    (hlab : lab m.labelMap o.a ≠ lab m.labelMap o.b) (hsa : lab m.labelMap "state" ≠ lab m.labelMap o.a) (hsb : lab m.labelMap "state" ≠ lab m.labelMap o.b)
    (hinj : ∀ v ∈ vs, ∀ w ∈ vs, lab m.labelMap w = lab m.labelMap v → w = v) (hs : (ss.map St.label).Nodup) :
    ∃ r d, statesSlice fl sts o .xarray (some vs) (some g) m sel isel = some r ∧ r.data = .xarray d ∧ r.states = ss.map St.label ∧
      d.attrs = [(lab m.labelMap o.c, scaled (normOf m o.c) g.c)] ∧
      ∀ v ∈ vs, ∀ f, fl.vars.lookup v = some f → ∀ k (hk : k < ss.length) i (hi : i < g.a.length) j (hj : j < g.b.length),
        atCoords d (lab m.labelMap v) [(lab m.labelMap o.a, scaled (normOf m o.a) g.a[i]), (lab m.labelMap o.b, scaled (normOf m o.b) g.b[j]),
            (lab m.labelMap "state", (ss[k].label : ℝ))]
          = some (modVal m.normV m.vmin m.vmax v (f ss[k] (planePoint o dir g.a[i] g.b[j] g.c))) := by
  rw [statesSlice_some h]
  simp only [np2xrS, List.length_map]
  rw [reshapeS_map]
  refine ⟨_, _, rfl, rfl, rfl, rfl, ?_⟩
  intro v hv f hf k hk i hi j hj
  simp only [atCoords, List.map_map, Function.comp_def]
  rw [lookup_map_key (fun v => lab m.labelMap v) _ vs v hv (fun w hw e => hinj v hv w hw e)]
  have hba : (lab m.labelMap o.b == lab m.labelMap o.a) = false := by simpa using fun e => hlab e.symm
  have hab : (lab m.labelMap o.a == lab m.labelMap o.b) = false := by simpa using hlab
  have h1 : (lab m.labelMap "state" == lab m.labelMap o.a) = false := by simpa using hsa
  have h2 : (lab m.labelMap "state" == lab m.labelMap o.b) = false := by simpa using hsb
  have h3 : (lab m.labelMap o.a == lab m.labelMap "state") = false := by simpa using fun e => hsa e.symm
  have h4 : (lab m.labelMap o.b == lab m.labelMap "state") = false := by simpa using fun e => hsb e.symm
  have fa := find_nodup _ (scaled_nodup ha na) i (by simpa using hi)
  have fb := find_nodup _ (scaled_nodup hb nb) j (by simpa using hj)
  have hs' : (ss.map fun s => ((St.label s : ℕ) : ℝ)).Nodup := by
    have := hs.map (f := fun n : ℕ => (n : ℝ)) Nat.cast_injective
    simpa [List.map_map, Function.comp_def] using this
  have fs := find_nodup _ hs' k (by simpa using hk)
  simp only [List.getElem_map] at fa fb fs
  simp only [Option.bind_eq_bind, Option.bind_some, List.mapM_cons, List.mapM_nil, position, List.lookup_cons, beq_self_eq_true, hab, hba, h1, h2, h3, h4, fa, fb, fs]
  simp only [pure, Option.bind_some, hf, Option.getD_some]
  rw [cell_state h f _ k hk i hi j hj]

/-- C65: slices for each state in numpy format. -/
theorem C65_states_numpy {fl : Flow} {sts ss : List St} {o : Ori} {dir : ℝ} {g : Grid} {m : Mods} {sel isel : Option (List ℕ)} {vs : List String}
    (h : Call fl sts ss o dir g m sel isel vs) :
    ∃ r get, statesSlice fl sts o .numpy (some vs) (some g) m sel isel = some r ∧ r.data = .numpy [ss.length, g.a.length, g.b.length] vs.length get ∧
      r.states = ss.map St.label ∧
      ∀ n (hn : n < vs.length), ∀ f, fl.vars.lookup vs[n] = some f → ∀ k (hk : k < ss.length) i (hi : i < g.a.length) j (hj : j < g.b.length),
        get [k, i, j, n] = modVal m.normV m.vmin m.vmax vs[n] (f ss[k] (planePoint o dir g.a[i] g.b[j] g.c)) := by
  rw [statesSlice_some h]
  simp only [np2npS, List.length_map]
  rw [reshapeS_map]
  simp only [Option.bind_eq_bind, Option.bind_some, List.length_map]
  refine ⟨_, _, rfl, rfl, rfl, ?_⟩
  intro n hn f hf k hk i hi j hj
  simp only [List.getElem?_map, List.getElem?_eq_getElem hn, Option.map_some, Option.elim_some, hf, Option.getD_some]
  rw [cell_state h f _ k hk i hi j hj]

/-- C65 (false of the code: pandas format for states): slices for each state cannot be obtained in pandas format. -/
theorem C65_states_pandas_fail {fl : Flow} {sts ss : List St} {o : Ori} {dir : ℝ} {g : Grid} {m : Mods} {sel isel : Option (List ℕ)} {vs : List String}
    (h : Call fl sts ss o dir g m sel isel vs) (hv : vs ≠ []) : statesSlice fl sts o .pandas (some vs) (some g) m sel isel = none := by
  rw [statesSlice_some h]
  simp only [np2pdS]
  obtain ⟨v, l, rfl⟩ := List.exists_cons_of_ne_nil hv
  rw [mapM_none]
  · rfl
  · exact ⟨_, by simp; left; rfl, rfl⟩

/-- C65 (false of the code: the rows of the pandas format tell the coordinates): the index of the pandas format only has the numbers of the grid points. -/
theorem C65_pandas_no_coordinates {fl : Flow} {sts ss : List St} {o : Ori} {dir : ℝ} {g : Grid} {m : Mods} {sel isel : Option (List ℕ)} {vs : List String}
    (h : Call fl sts ss o dir g m sel isel vs) {g' : Grid} {dir' : ℝ} (h' : Call fl sts ss o dir' g' m sel isel vs) (ha : g.a.length = g'.a.length) (hb : g.b.length = g'.b.length) :
    ∃ r t r' t', meanSlice fl sts o .pandas (some vs) (some g) m sel isel = some r ∧ meanSlice fl sts o .pandas (some vs) (some g') m sel isel = some r' ∧
      r.data = .pandas t ∧ r'.data = .pandas t' ∧ t.index = t'.index ∧ t.names = t'.names := by
  rw [meanSlice_some h, meanSlice_some h']
  simp only [np2pd, List.length_map]
  rw [fits_map _ _ _ _ (fun v => by simp [meanRow_length]), fits_map _ _ _ _ (fun v => by simp [meanRow_length])]
  exact ⟨_, _, _, _, rfl, rfl, rfl, rfl, by simp [ha, hb], rfl⟩

/-- C65 (false of the code: the returned grid is that of the calculation): with normalization, the returned coordinates are the normalized ones, but the coordinate of the plane
and the points are not. -/
theorem C65_returned_grid {fl : Flow} {sts ss : List St} {o : Ori} {dir : ℝ} {g : Grid} {m : Mods} {sel isel : Option (List ℕ)} {vs : List String}
    (h : Call fl sts ss o dir g m sel isel vs) (fmt : Format) (r : Result) (hr : meanSlice fl sts o fmt (some vs) (some g) m sel isel = some r) :
    r.grid.a = g.a.map (scaled (normOf m o.a)) ∧ r.grid.b = g.b.map (scaled (normOf m o.b)) ∧ r.grid.c = g.c ∧ r.grid.pts = g.pts := by
  rw [meanSlice_some h, Option.map_eq_some_iff] at hr
  obtain ⟨out, -, rfl⟩ := hr
  simp [modGrid, norm_A, norm_B]

/-! ### Several slices -/

/-- C65: horizontal slices at different heights have the same points. -/
theorem C65_same_grid_xy (sts : List St) (resolution : Option ℝ) (nImg : Option (ℤ × ℤ)) (xmin ymin xmax ymax : Option ℝ)
    (xspace yspace : ℝ) (sel isel : Option (List ℕ)) (z z' : ℝ) (g : Grid)
    (h : gridXY sts resolution nImg xmin ymin xmax ymax (some z) xspace yspace sel isel = some g) :
    g.c = z ∧ ∃ g', gridXY sts resolution nImg xmin ymin xmax ymax (some z') xspace yspace sel isel = some g' ∧ g'.a = g.a ∧ g'.b = g.b ∧ g'.c = z' := by
  simp only [gridXY, Option.bind_eq_bind, Option.bind_eq_some_iff] at h
  obtain ⟨ss, hss, xLo, h1, yLo, h2, xHi, h3, yHi, h4, zp, h5, n, hn, xs, hxs, ys, hys, h⟩ := h
  have hz : ∀ (w : ℝ) l, plane (some w) l = some w := by intro w l; simp [plane, lower, upper]; ring
  rw [hz] at h5
  simp only [Option.some.injEq] at h5
  subst h5
  simp only [pure, Option.some.injEq] at h
  subst h
  refine ⟨rfl, ?_⟩
  simp only [gridXY, Option.bind_eq_bind, hss, Option.bind_some, h1, h2, h3, h4, hz, hn, hxs, hys]
  exact ⟨_, rfl, rfl, rfl, rfl⟩

/-- C65: the same for vertical slices along the x axis. -/
theorem C65_same_grid_xz (sts : List St) (resolution : Option ℝ) (nImg : Option (ℤ × ℤ)) (dir : ℝ) (xmin zmin xmax zmax : Option ℝ)
    (xspace zspace : ℝ) (sel isel : Option (List ℕ)) (y y' : ℝ) (g : Grid)
    (h : gridXZ sts resolution nImg dir xmin zmin xmax zmax (some y) xspace zspace sel isel = some g) :
    g.c = y ∧ ∃ g', gridXZ sts resolution nImg dir xmin zmin xmax zmax (some y') xspace zspace sel isel = some g' ∧ g'.a = g.a ∧ g'.b = g.b ∧ g'.c = y' := by
  simp only [gridXZ, Option.bind_eq_bind, Option.bind_eq_some_iff] at h
  obtain ⟨ss, hss, xLo, h1, yLo, h2, xHi, h3, yHi, h4, zp, h5, n, hn, xs, hxs, ys, hys, h⟩ := h
  have hz : ∀ (w : ℝ) l, plane (some w) l = some w := by intro w l; simp [plane, lower, upper]; ring
  rw [hz] at h5
  simp only [Option.some.injEq] at h5
  subst h5
  simp only [pure, Option.some.injEq] at h
  subst h
  refine ⟨rfl, ?_⟩
  simp only [gridXZ, Option.bind_eq_bind, hss, Option.bind_some, h1, h2, h3, h4, hz, hn, hxs, hys]
  exact ⟨_, rfl, rfl, rfl, rfl⟩

/-- C65: the same for vertical slices across the x axis. -/
theorem C65_same_grid_yz (sts : List St) (resolution : Option ℝ) (nImg : Option (ℤ × ℤ)) (dir : ℝ) (ymin zmin ymax zmax : Option ℝ)
    (yspace zspace : ℝ) (sel isel : Option (List ℕ)) (x x' : ℝ) (g : Grid)
    (h : gridYZ sts resolution nImg dir ymin zmin ymax zmax (some x) yspace zspace sel isel = some g) :
    g.c = x ∧ ∃ g', gridYZ sts resolution nImg dir ymin zmin ymax zmax (some x') yspace zspace sel isel = some g' ∧ g'.a = g.a ∧ g'.b = g.b ∧ g'.c = x' := by
  simp only [gridYZ, Option.bind_eq_bind, Option.bind_eq_some_iff] at h
  obtain ⟨ss, hss, xLo, h1, yLo, h2, xHi, h3, yHi, h4, zp, h5, n, hn, xs, hxs, ys, hys, h⟩ := h
  have hz : ∀ (w : ℝ) l, plane (some w) l = some w := by intro w l; simp [plane, lower, upper]; ring
  rw [hz] at h5
  simp only [Option.some.injEq] at h5
  subst h5
  simp only [pure, Option.some.injEq] at h
  subst h
  refine ⟨rfl, ?_⟩
  simp only [gridYZ, Option.bind_eq_bind, hss, Option.bind_some, h1, h2, h3, h4, hz, hn, hxs, hys]
  exact ⟨_, rfl, rfl, rfl, rfl⟩

/-- The slices of a family of planes: for each value a grid with the same coordinates. -/
def Family (fl : Flow) (sts ss : List St) (o : Ori) (dir : ℝ) (m : Mods) (sel isel : Option (List ℕ)) (vs : List String) (vals : List ℝ)
    (grid : ℝ → Option Grid) (as bs : List ℝ) : Prop :=
  ∀ c ∈ vals, ∃ g, grid c = some g ∧ Call fl sts ss o dir g m sel isel vs ∧ g.a = as ∧ g.b = bs ∧ g.c = c

/-- The data set of a mean slice. -/
def meanDs (fl : Flow) (ss : List St) (o : Ori) (m : Mods) (vs : List String) (g : Grid) : XDs :=
  ⟨[(lab m.labelMap o.b, g.b.map (scaled (normOf m o.b))), (lab m.labelMap o.a, g.a.map (scaled (normOf m o.a)))],
    vs.map fun v => (v, ⟨[lab m.labelMap o.b, lab m.labelMap o.a], fun idx => match idx with
      | [j, i] => cell2 g.b.length ((meanRow fl ((fl.vars.lookup v).getD fun _ _ => 0) ss g.pts (g.a.length * g.b.length)).map (modVal m.normV m.vmin m.vmax v)) i j
      | _ => 0⟩),
    [(lab m.labelMap o.c, scaled (normOf m o.c) g.c)]⟩

lemma mean_ds {fl : Flow} {sts ss : List St} {o : Ori} {dir : ℝ} {g : Grid} {m : Mods} {sel isel : Option (List ℕ)} {vs : List String}
    (h : Call fl sts ss o dir g m sel isel vs) : (meanSlice fl sts o .xarray (some vs) (some g) m sel isel).bind Result.ds = some (meanDs fl ss o m vs g) := by
  rw [meanSlice_some h]
  simp only [np2xr, List.length_map]
  rw [fits_map _ _ _ _ (fun v => by simp [meanRow_length])]
  simp only [if_true, Option.map_some, Option.bind_some, Result.ds, List.map_map, Function.comp_def]
  rfl

lemma mapM_family {fl : Flow} {sts ss : List St} {o : Ori} {dir : ℝ} {m : Mods} {sel isel : Option (List ℕ)} {vs : List String} {vals : List ℝ}
    {grid : ℝ → Option Grid} {as bs : List ℝ} (h : Family fl sts ss o dir m sel isel vs vals grid as bs) :
    ∀ (F : Option Grid → Option XDs) (D : Grid → XDs), (∀ g, Call fl sts ss o dir g m sel isel vs → F (some g) = some (D g)) →
      vals.mapM (fun c => F (grid c)) = some (vals.map fun c => D ((grid c).getD ⟨[], [], 0, []⟩)) := by
  intro F D hF
  apply mapM_some
  intro c hc
  obtain ⟨g, h1, h2, -⟩ := h c hc
  rw [h1, hF g h2]
  rfl

/-- C65: mean slices for several planes: at a value from the list and coordinates of the slice, the data set has the value at the point of that plane. -/
theorem C65_mean_slices {fl : Flow} {sts ss : List St} {o : Ori} {dir : ℝ} {m : Mods} {sel isel : Option (List ℕ)} {vs : List String} {vals : List ℝ}
    {grid : ℝ → Option Grid} {as bs : List ℝ} (h : Family fl sts ss o dir m sel isel vs vals grid as bs) (hne : vals ≠ []) (hnd : vals.Nodup)
    (ha : as.Nodup) (hb : bs.Nodup) (na : normOf m o.a ≠ some 0) (nb : normOf m o.b ≠ some 0)
    (hlab : lab m.labelMap o.a ≠ lab m.labelMap o.b) (hc : lab m.labelMap o.c = o.c) (hca : o.c ≠ lab m.labelMap o.a) (hcb : o.c ≠ lab m.labelMap o.b) :
    ∃ d, meanSlices fl sts o (some vs) vals grid m sel isel = some d ∧ d.attrs = [] ∧ d.coords.lookup o.c = some vals ∧
      ∀ v ∈ vs, ∀ f, fl.vars.lookup v = some f → ∀ k (hk : k < vals.length) i (hi : i < as.length) j (hj : j < bs.length),
        atCoords d v [(o.c, vals[k]), (lab m.labelMap o.a, scaled (normOf m o.a) as[i]), (lab m.labelMap o.b, scaled (normOf m o.b) bs[j])]
          = some (modVal m.normV m.vmin m.vmax v
            (ss.map fun s => wt fl s (planePoint o dir as[i] bs[j] vals[k]) * f s (planePoint o dir as[i] bs[j] vals[k])).sum) := by
  have hm := mapM_family h (fun g => (meanSlice fl sts o .xarray (some vs) g m sel isel).bind Result.ds) (meanDs fl ss o m vs) (fun g hg => mean_ds hg)
  obtain ⟨c0, cs, hvals⟩ := List.exists_cons_of_ne_nil hne
  have hlook : ∀ g, look (meanDs fl ss o m vs g).attrs o.c = some (scaled (normOf m o.c) g.c) := by intro g; simp [look, meanDs, hc]
  obtain ⟨g0, hg0, hcall0, hga0, hgb0, hgc0⟩ := h c0 (by simp [hvals])
  have hout : meanSlices fl sts o (some vs) vals grid m sel isel = concat o.c vals (vals.map fun c => meanDs fl ss o m vs ((grid c).getD ⟨[], [], 0, []⟩)) := by
    simp only [meanSlices, Option.bind_eq_bind, hm, Option.bind_some]
  rw [hout]
  have hd : ∃ rest, (vals.map fun c => meanDs fl ss o m vs ((grid c).getD ⟨[], [], 0, []⟩)) = meanDs fl ss o m vs g0 :: rest := by
    rw [hvals]; exact ⟨_, by rw [List.map_cons, hg0]; rfl⟩
  have hdsl : ∀ k (hk : k < vals.length), ∃ g, Call fl sts ss o dir g m sel isel vs ∧ g.a = as ∧ g.b = bs ∧ g.c = vals[k] ∧
      (vals.map fun c => meanDs fl ss o m vs ((grid c).getD ⟨[], [], 0, []⟩))[k]? = some (meanDs fl ss o m vs g) := by
    intro k hk
    obtain ⟨g, g1, g2, g3, g4, g5⟩ := h vals[k] (List.getElem_mem hk)
    exact ⟨g, g2, g3, g4, g5, by simp [hk, g1]⟩
  obtain ⟨rest, hd⟩ := hd
  rw [hd] at hdsl ⊢
  simp only [concat, hlook]
  refine ⟨_, rfl, by simp [meanDs, hc], by simp, ?_⟩
  intro v hv f hf k hk i hi j hj
  obtain ⟨g, g1, g2, g3, g4, g5⟩ := hdsl k hk
  have hlv : ∀ g, look (meanDs fl ss o m vs g).vars v = some ⟨[lab m.labelMap o.b, lab m.labelMap o.a], fun idx => match idx with
      | [j, i] => cell2 g.b.length ((meanRow fl ((fl.vars.lookup v).getD fun _ _ => 0) ss g.pts (g.a.length * g.b.length)).map (modVal m.normV m.vmin m.vmax v)) i j
      | _ => 0⟩ := by
    intro g
    simp only [look, meanDs]
    rw [lookup_map_key (fun v => v) _ vs v hv (fun w _ e => e)]
  simp only [atCoords]
  rw [lookup_map_val (stackVar o.c (meanDs fl ss o m vs g0 :: rest))]
  have hlv0 := hlv g0
  rw [look] at hlv0
  rw [hlv0]
  have hba : (lab m.labelMap o.b == lab m.labelMap o.a) = false := by simpa using fun e => hlab e.symm
  have hab : (lab m.labelMap o.a == lab m.labelMap o.b) = false := by simpa using hlab
  have h3 : (lab m.labelMap o.a == o.c) = false := by simpa using fun e => hca e.symm
  have h4 : (lab m.labelMap o.b == o.c) = false := by simpa using fun e => hcb e.symm
  have fa := find_nodup _ (scaled_nodup ha na) i (by simpa using hi)
  have fb := find_nodup _ (scaled_nodup hb nb) j (by simpa using hj)
  have fk := find_nodup _ hnd k hk
  simp only [List.getElem_map] at fa fb
  simp only [stackVar, Option.map_some, Option.bind_eq_bind, Option.bind_some, List.mapM_cons, List.mapM_nil, position, List.lookup_cons, beq_self_eq_true, hba, h3, h4, fk]
  simp only [meanDs, hga0, hgb0, List.lookup_cons, beq_self_eq_true, hab, fa, fb, Option.bind_some]
  simp only [meanDs, hga0, hgb0] at g5
  simp only [pure, Option.bind_some, g5]
  have hlg := hlv g
  simp only [meanDs] at hlg
  rw [hlg]
  simp only [Option.elim_some, hf, Option.getD_some]
  subst g2 g3
  rw [cell_mean g1 f _ i hi j hj, g4]

/-- C65 (false of the code: the plane coordinate can be renamed): if the label map renames the coordinate of the plane, several slices cannot be joined. -/
theorem C65_slices_label_fail {fl : Flow} {sts ss : List St} {o : Ori} {dir : ℝ} {m : Mods} {sel isel : Option (List ℕ)} {vs : List String} {vals : List ℝ}
    {grid : ℝ → Option Grid} {as bs : List ℝ} (h : Family fl sts ss o dir m sel isel vs vals grid as bs) (hc : lab m.labelMap o.c ≠ o.c) :
    meanSlices fl sts o (some vs) vals grid m sel isel = none := by
  have hm := mapM_family h (fun g => (meanSlice fl sts o .xarray (some vs) g m sel isel).bind Result.ds) (meanDs fl ss o m vs) (fun g hg => mean_ds hg)
  simp only [meanSlices, Option.bind_eq_bind, hm, Option.bind_some]
  cases vals with
  | nil => rfl
  | cons c cs =>
    have : ∀ g, look (meanDs fl ss o m vs g).attrs o.c = none := by
      intro g
      have : (o.c == lab m.labelMap o.c) = false := by simpa using fun e => hc e.symm
      simp [look, meanDs, List.lookup_cons, this]
    simp only [List.map_cons, concat, this]

lemma mapM_inv {α β : Type} {f : α → Option β} : ∀ {l : List α} {out : List β}, l.mapM f = some out → ∀ a ∈ l, ∃ b, f a = some b
  | [], _, _, a, ha => by simp at ha
  | x :: l, out, h, a, ha => by
    rw [List.mapM_cons] at h
    simp only [Option.bind_eq_bind, Option.bind_eq_some_iff] at h
    obtain ⟨b, hb, out', h2, -⟩ := h
    rcases List.mem_cons.1 ha with rfl | ha
    · exact ⟨b, hb⟩
    · exact mapM_inv h2 a ha

/-- C65: the order of dimensions does not matter for values at given coordinates. -/
theorem C65_transpose {first : List String} {d d' : XDs} (h : transpose first d = some d') {v : String} {sel : List (String × ℝ)} {x : ℝ}
    (hx : atCoords d v sel = some x) : atCoords d' v sel = some x ∧ d'.coords = d.coords ∧ ∀ w, d'.vars.lookup v = some w → ∃ rest, w.dims = first ++ rest := by
  unfold transpose at h
  split_ifs at h with hall
  simp only [Option.some.injEq] at h
  subst h
  simp only [atCoords, Option.bind_eq_bind, Option.bind_eq_some_iff] at hx ⊢
  obtain ⟨w, hw, idx, hidx, hx⟩ := hx
  rw [lookup_map_val (fun _ => transposeVar first), hw]
  have hsub : ∀ n ∈ first, n ∈ w.dims := by
    rw [List.all_eq_true] at hall
    have hmem : ∃ k, (k, w) ∈ d.vars := by
      have := List.lookup_eq_some_iff.1 hw
      obtain ⟨l1, l2, e, -⟩ := this
      exact ⟨v, by rw [e]; simp⟩
    obtain ⟨k, hk⟩ := hmem
    have := hall _ hk
    simpa using this
  set P : String → ℕ := fun n => (position d.coords sel n).getD 0 with hP
  have hpos : ∀ n ∈ w.dims, position d.coords sel n = some (P n) := by
    intro n hn
    obtain ⟨b, hb⟩ := mapM_inv hidx n hn
    simp [hP, hb]
  have e1 : idx = w.dims.map P := by
    rw [mapM_some _ P _ hpos] at hidx
    exact (Option.some.inj hidx).symm
  set new := first ++ w.dims.filter fun n => !first.contains n with hnew
  have hnewsub : ∀ n ∈ new, n ∈ w.dims := by
    intro n hn
    rw [hnew, List.mem_append, List.mem_filter] at hn
    rcases hn with hn | hn
    · exact hsub n hn
    · exact hn.1
  have hdims : ∀ n ∈ w.dims, n ∈ new := by
    intro n hn
    rw [hnew, List.mem_append, List.mem_filter]
    by_cases hf : n ∈ first
    · exact Or.inl hf
    · exact Or.inr ⟨hn, by simpa using hf⟩
  refine ⟨⟨_, rfl, new.map P, mapM_some _ P _ (fun n hn => hpos n (hnewsub n hn)), ?_⟩, trivial, ?_⟩
  · rw [← hx, e1]
    simp only [transposeVar, pure, Option.some.injEq]
    congr 1
    apply List.map_congr_left
    intro n hn
    have hlt : new.idxOf n < new.length := List.idxOf_lt_length_of_mem (hdims n hn)
    rw [List.getD_eq_getElem _ _ (by rw [List.length_map]; exact hlt), List.getElem_map, List.getElem_idxOf]
  · intro w' hw'
    simp only [Option.map_some, Option.some.injEq] at hw'
    subst hw'
    exact ⟨_, rfl⟩

/-- C65: joined data sets: the value at number `k` of the new coordinate is that of the data set number `k`. -/
theorem C65_concat {name : String} {vals : List ℝ} {d0 : XDs} {rest : List XDs} {d dk : XDs} (h : concat name vals (d0 :: rest) = some d) (hnd : vals.Nodup)
    {k : ℕ} (hk : k < vals.length) (hdk : (d0 :: rest)[k]? = some dk) (hco : d0.coords = dk.coords) {v : String} {w0 wk : XVar}
    (h0 : d0.vars.lookup v = some w0) (hwk : dk.vars.lookup v = some wk) (hdims : w0.dims = wk.dims) (hname : name ∉ wk.dims) {sel : List (String × ℝ)} {x : ℝ}
    (hx : atCoords dk v sel = some x) : atCoords d v ((name, vals[k]) :: sel) = some x := by
  simp only [concat] at h
  split at h
  · simp at h
  · simp only [Option.some.injEq] at h
    subst h
    simp only [atCoords, Option.bind_eq_bind, Option.bind_eq_some_iff] at hx
    obtain ⟨w, hw, idx, hidx, hx⟩ := hx
    rw [hwk] at hw
    obtain rfl := Option.some.inj hw
    simp only [atCoords]
    rw [lookup_map_val (stackVar name (d0 :: rest)), h0]
    have fk := find_nodup _ hnd k hk
    have hp : ∀ n ∈ wk.dims, position ((name, vals) :: d0.coords) ((name, vals[k]) :: sel) n = position dk.coords sel n := by
      intro n hn
      have : (n == name) = false := by simpa using fun e : n = name => hname (e ▸ hn)
      simp only [position, List.lookup_cons, this, hco]
    have hm : wk.dims.mapM (position ((name, vals) :: d0.coords) ((name, vals[k]) :: sel)) = some idx := by
      have e : idx = wk.dims.map fun n => (position dk.coords sel n).getD 0 := by
        rw [mapM_some _ (fun n => (position dk.coords sel n).getD 0) _ (fun n hn => by obtain ⟨b, hb⟩ := mapM_inv hidx n hn; simp [hb])] at hidx
        exact (Option.some.inj hidx).symm
      rw [e]
      apply mapM_some
      intro n hn
      rw [hp n hn]
      obtain ⟨b, hb⟩ := mapM_inv hidx n hn
      simp [hb]
    simp only [Option.map_some, stackVar, hdims, List.mapM_cons, Option.bind_eq_bind, Option.bind_some, hm]
    simp only [position, List.lookup_cons, beq_self_eq_true, Option.bind_eq_bind, Option.bind_some, fk, pure, hdk, look, hwk, Option.elim_some]
    simpa using hx

/-- The data set of slices for each state. -/
def statesDs (fl : Flow) (ss : List St) (o : Ori) (m : Mods) (vs : List String) (g : Grid) : XDs :=
  ⟨[(lab m.labelMap "state", (ss.map St.label).map fun s : ℕ => (s : ℝ)), (lab m.labelMap o.b, g.b.map (scaled (normOf m o.b))), (lab m.labelMap o.a, g.a.map (scaled (normOf m o.a)))],
    vs.map fun v => (lab m.labelMap v, ⟨[lab m.labelMap "state", lab m.labelMap o.b, lab m.labelMap o.a], fun idx => match idx with
      | [s, j, i] => cell2 g.b.length (((rowsOf ((fl.vars.lookup v).getD fun _ _ => 0) ss g.pts).map fun (r : List ℝ) => r.map (modVal m.normV m.vmin m.vmax v)).getD s []) i j
      | _ => 0⟩),
    [(lab m.labelMap o.c, scaled (normOf m o.c) g.c)]⟩

lemma states_ds {fl : Flow} {sts ss : List St} {o : Ori} {dir : ℝ} {g : Grid} {m : Mods} {sel isel : Option (List ℕ)} {vs : List String}
    (h : Call fl sts ss o dir g m sel isel vs) : (statesSlice fl sts o .xarray (some vs) (some g) m sel isel).bind Result.ds = some (statesDs fl ss o m vs g) := by
  rw [statesSlice_some h]
  simp only [np2xrS, List.length_map]
  rw [reshapeS_map]
  simp only [Option.map_some, Option.bind_some, Result.ds, List.map_map, Function.comp_def, Option.bind_eq_bind, pure]
  simp only [statesDs, List.map_map, Function.comp_def]
  rfl

/-- C65: slices for each state and several planes; the dimensions are state, z, y, x for all orientations. (The names of coordinates must not be changed by the label map.) -/
theorem C65_states_slices {fl : Flow} {sts ss : List St} {o : Ori} {dir : ℝ} {m : Mods} {sel isel : Option (List ℕ)} {vs : List String} {vals : List ℝ}
    {grid : ℝ → Option Grid} {as bs : List ℝ} (h : Family fl sts ss o dir m sel isel vs vals grid as bs) (hne : vals ≠ []) (hnd : vals.Nodup)
    (ha : as.Nodup) (hb : bs.Nodup) (na : normOf m o.a ≠ some 0) (nb : normOf m o.b ≠ some 0)
    (hl : ∀ n ∈ ["state", "x", "y", "z"], lab m.labelMap n = n)
    (hinj : ∀ v ∈ vs, ∀ w ∈ vs, lab m.labelMap w = lab m.labelMap v → w = v) (hs : (ss.map St.label).Nodup) :
    ∃ d, statesSlices fl sts o (some vs) vals grid m sel isel = some d ∧ d.coords.lookup o.c = some vals ∧
      ∀ v ∈ vs, ∀ f, fl.vars.lookup v = some f → (∃ w, d.vars.lookup (lab m.labelMap v) = some w ∧ w.dims = ["state", "z", "y", "x"]) ∧
        ∀ n (hn : n < vals.length) k (hk : k < ss.length) i (hi : i < as.length) j (hj : j < bs.length),
        atCoords d (lab m.labelMap v) [(o.c, vals[n]), (o.a, scaled (normOf m o.a) as[i]), (o.b, scaled (normOf m o.b) bs[j]), ("state", (ss[k].label : ℝ))]
          = some (modVal m.normV m.vmin m.vmax v (f ss[k] (planePoint o dir as[i] bs[j] vals[n]))) := by
  have hm := mapM_family h (fun g => (statesSlice fl sts o .xarray (some vs) g m sel isel).bind Result.ds) (statesDs fl ss o m vs) (fun g hg => states_ds hg)
  obtain ⟨c0, cs, hvals⟩ := List.exists_cons_of_ne_nil hne
  have hA : lab m.labelMap o.a = o.a := hl _ (by cases o <;> decide)
  have hB : lab m.labelMap o.b = o.b := hl _ (by cases o <;> decide)
  have hC : lab m.labelMap o.c = o.c := hl _ (by cases o <;> decide)
  have hS : lab m.labelMap "state" = "state" := hl _ (by decide)
  have hab : o.a ≠ o.b := by cases o <;> decide
  have hsa : "state" ≠ o.a := by cases o <;> decide
  have hsb : "state" ≠ o.b := by cases o <;> decide
  have hcn : o.c ∉ ["state", o.b, o.a] := by cases o <;> decide
  obtain ⟨g0, hg0, hcall0, hga0, hgb0, hgc0⟩ := h c0 (by simp [hvals])
  have hdsl : ∀ k (hk : k < vals.length), ∃ g, Call fl sts ss o dir g m sel isel vs ∧ g.a = as ∧ g.b = bs ∧ g.c = vals[k] ∧
      (vals.map fun c => statesDs fl ss o m vs ((grid c).getD ⟨[], [], 0, []⟩))[k]? = some (statesDs fl ss o m vs g) := by
    intro k hk
    obtain ⟨g, g1, g2, g3, g4, g5⟩ := h vals[k] (List.getElem_mem hk)
    exact ⟨g, g2, g3, g4, g5, by simp [hk, g1]⟩
  obtain ⟨rest, hd⟩ : ∃ rest, (vals.map fun c => statesDs fl ss o m vs ((grid c).getD ⟨[], [], 0, []⟩)) = statesDs fl ss o m vs g0 :: rest := by
    rw [hvals]; exact ⟨_, by rw [List.map_cons, hg0]; rfl⟩
  rw [hd] at hdsl
  have hlook : look (statesDs fl ss o m vs g0).attrs o.c = some (scaled (normOf m o.c) g0.c) := by simp [look, statesDs, hC]
  obtain ⟨dc, hdc⟩ : ∃ dc, concat o.c vals (statesDs fl ss o m vs g0 :: rest) = some dc := by simp only [concat, hlook]; exact ⟨_, rfl⟩
  have hdcv : dc.vars = vs.map (fun v => (lab m.labelMap v, stackVar o.c (statesDs fl ss o m vs g0 :: rest) (lab m.labelMap v) ⟨["state", o.b, o.a], fun idx => match idx with
      | [s, j, i] => cell2 g0.b.length (((rowsOf ((fl.vars.lookup v).getD fun _ _ => 0) ss g0.pts).map fun (r : List ℝ) => r.map (modVal m.normV m.vmin m.vmax v)).getD s []) i j
      | _ => 0⟩)) ∧ dc.coords.lookup o.c = some vals := by
    simp only [concat, hlook, Option.some.injEq] at hdc
    rw [← hdc]
    simp only [statesDs, List.map_map, Function.comp_def, hA, hB, hS]
    exact ⟨trivial, by simp⟩
  obtain ⟨d, hd'⟩ : ∃ d, transpose (firstDims o) dc = some d := by
    unfold transpose
    have : (dc.vars.all fun v => (firstDims o).all fun n => v.2.dims.contains n) = true := by
      rw [hdcv.1]
      simp only [List.all_map, List.all_eq_true, Function.comp_def, stackVar]
      intro v _ n hn
      revert n
      cases o <;> decide
    rw [this]
    exact ⟨_, rfl⟩
  have hvar : ∀ g v, v ∈ vs → ∃ w, (statesDs fl ss o m vs g).vars.lookup (lab m.labelMap v) = some w ∧ w.dims = ["state", o.b, o.a] := by
    intro g v hv
    simp only [statesDs]
    rw [lookup_map_key (fun v => lab m.labelMap v) _ vs v hv (fun w hw e => hinj v hv w hw e)]
    exact ⟨_, rfl, by simp [hA, hB, hS]⟩
  have key : ∀ v ∈ vs, ∀ f, fl.vars.lookup v = some f → ∀ n (hn : n < vals.length) k (hk : k < ss.length) i (hi : i < as.length) j (hj : j < bs.length),
        atCoords dc (lab m.labelMap v) [(o.c, vals[n]), (o.a, scaled (normOf m o.a) as[i]), (o.b, scaled (normOf m o.b) bs[j]), ("state", (ss[k].label : ℝ))]
          = some (modVal m.normV m.vmin m.vmax v (f ss[k] (planePoint o dir as[i] bs[j] vals[n]))) := by
    intro v hv f hf n hn k hk i hi j hj
    obtain ⟨g, g1, rfl, rfl, g4, g5⟩ := hdsl n hn
    obtain ⟨w0, hw0, hw0d⟩ := hvar g0 v hv
    obtain ⟨wk, hwk, hwkd⟩ := hvar g v hv
    refine C65_concat hdc hnd hn g5 ?_ hw0 hwk (by rw [hw0d, hwkd]) (by rw [hwkd]; exact hcn) ?_
    · simp [statesDs, hga0, hgb0]
    · obtain ⟨r, d2, h1, h2, -, -, h3⟩ := C65_states_xarray g1 ha hb na nb (by rw [hA, hB]; exact hab) (by rw [hA, hS]; exact hsa) (by rw [hB, hS]; exact hsb) hinj hs
      have e := states_ds g1
      rw [h1, Option.bind_some, Result.ds, h2] at e
      have e' : d2 = statesDs fl ss o m vs g := by simpa using e
      have := h3 v hv f hf k hk i hi j hj
      rw [hA, hB, hS, e', g4] at this
      exact this
  refine ⟨d, by simp only [statesSlices, Option.bind_eq_bind, hm, Option.bind_some, hd, hdc, hd'], ?_, fun v hv f hf => ⟨?_, fun n hn k hk i hi j hj => ?_⟩⟩
  · have : d.coords = dc.coords := by
      unfold transpose at hd'; split_ifs at hd'; simp only [Option.some.injEq] at hd'; rw [← hd']
    rw [this]; exact hdcv.2
  · unfold transpose at hd'; split_ifs at hd'; simp only [Option.some.injEq] at hd'; rw [← hd']
    simp only
    rw [lookup_map_val (fun _ => transposeVar (firstDims o)), hdcv.1, lookup_map_key (fun v => lab m.labelMap v) _ vs v hv (fun w hw e => hinj v hv w hw e)]
    refine ⟨_, rfl, ?_⟩
    simp only [transposeVar, stackVar]
    cases o <;> decide
  · exact (C65_transpose hd' (key v hv f hf n hn k hk i hi j hj)).1

/-- C65: the xy slices of the same call for different planes form a family, so the theorems on several slices apply. -/
theorem C65_family_xy (fl : Flow) (sts ss : List St) (dir : ℝ) (m : Mods) (sel isel : Option (List ℕ)) (vs : List String) (vals : List ℝ)
    (resolution : Option ℝ) (nImg : Option (ℤ × ℤ)) (xmin ymin xmax ymax : Option ℝ) (xspace yspace : ℝ) (hss : select isel sel sts = some ss) (hne : ss ≠ [])
    (hw : fl.vars.lookup WEIGHT = none) (hv : ∀ v ∈ vs, v ∈ fl.vars.map Prod.fst) (hnd : vs.Nodup) (c0 : ℝ) (g0 : Grid)
    (h0 : gridXY sts resolution nImg xmin ymin xmax ymax (some c0) xspace yspace sel isel = some g0) :
    Family fl sts ss .xy dir m sel isel vs vals (fun c => gridXY sts resolution nImg xmin ymin xmax ymax (some c) xspace yspace sel isel) g0.a g0.b := by
  intro c _
  obtain ⟨-, g, h1, h2, h3, h4⟩ := C65_same_grid_xy _ _ _ _ _ _ _ _ _ _ _ c0 c g0 h0
  obtain ⟨ss', h5, h6⟩ := C65_grid_xy _ _ _ _ _ _ _ _ _ _ _ _ g h1 dir
  rw [hss] at h5
  obtain rfl := Option.some.inj h5
  exact ⟨g, h1, ⟨hss, hne, h6, hw, hv, hnd⟩, h2, h3, h4⟩

/-- C65: the xz slices of the same call for different planes form a family, so the theorems on several slices apply. -/
theorem C65_family_xz (fl : Flow) (sts ss : List St) (dir : ℝ) (m : Mods) (sel isel : Option (List ℕ)) (vs : List String) (vals : List ℝ)
    (resolution : Option ℝ) (nImg : Option (ℤ × ℤ)) (xmin zmin xmax zmax : Option ℝ) (xspace zspace : ℝ) (hss : select isel sel sts = some ss) (hne : ss ≠ [])
    (hw : fl.vars.lookup WEIGHT = none) (hv : ∀ v ∈ vs, v ∈ fl.vars.map Prod.fst) (hnd : vs.Nodup) (c0 : ℝ) (g0 : Grid)
    (h0 : gridXZ sts resolution nImg dir xmin zmin xmax zmax (some c0) xspace zspace sel isel = some g0) :
    Family fl sts ss .xz dir m sel isel vs vals (fun c => gridXZ sts resolution nImg dir xmin zmin xmax zmax (some c) xspace zspace sel isel) g0.a g0.b := by
  intro c _
  obtain ⟨-, g, h1, h2, h3, h4⟩ := C65_same_grid_xz _ _ _ _ _ _ _ _ _ _ _ _ c0 c g0 h0
  obtain ⟨ss', h5, h6⟩ := C65_grid_xz _ _ _ _ _ _ _ _ _ _ _ _ _ g h1
  rw [hss] at h5
  obtain rfl := Option.some.inj h5
  exact ⟨g, h1, ⟨hss, hne, h6, hw, hv, hnd⟩, h2, h3, h4⟩

/-- C65: the yz slices of the same call for different planes form a family, so the theorems on several slices apply. -/
theorem C65_family_yz (fl : Flow) (sts ss : List St) (dir : ℝ) (m : Mods) (sel isel : Option (List ℕ)) (vs : List String) (vals : List ℝ)
    (resolution : Option ℝ) (nImg : Option (ℤ × ℤ)) (ymin zmin ymax zmax : Option ℝ) (yspace zspace : ℝ) (hss : select isel sel sts = some ss) (hne : ss ≠ [])
    (hw : fl.vars.lookup WEIGHT = none) (hv : ∀ v ∈ vs, v ∈ fl.vars.map Prod.fst) (hnd : vs.Nodup) (c0 : ℝ) (g0 : Grid)
    (h0 : gridYZ sts resolution nImg dir ymin zmin ymax zmax (some c0) yspace zspace sel isel = some g0) :
    Family fl sts ss .yz dir m sel isel vs vals (fun c => gridYZ sts resolution nImg dir ymin zmin ymax zmax (some c) yspace zspace sel isel) g0.a g0.b := by
  intro c _
  obtain ⟨-, g, h1, h2, h3, h4⟩ := C65_same_grid_yz _ _ _ _ _ _ _ _ _ _ _ _ c0 c g0 h0
  obtain ⟨ss', h5, h6⟩ := C65_grid_yz _ _ _ _ _ _ _ _ _ _ _ _ _ g h1
  rw [hss] at h5
  obtain rfl := Option.some.inj h5
  exact ⟨g, h1, ⟨hss, hne, h6, hw, hv, hnd⟩, h2, h3, h4⟩

lemma mapM_get {α β : Type} {f : α → Option β} : ∀ {l : List α} {out : List β}, l.mapM f = some out → out.length = l.length ∧ ∀ k (h : k < l.length), f l[k] = out[k]?
  | [], out, h => by simp at h; subst h; simp
  | a :: l, out, h => by
    rw [List.mapM_cons] at h
    simp only [Option.bind_eq_bind, Option.bind_eq_some_iff] at h
    obtain ⟨b, hb, out', h2, h3⟩ := h
    simp only [pure, Option.some.injEq] at h3
    subst h3
    obtain ⟨i1, i2⟩ := mapM_get h2
    refine ⟨by simp [i1], fun k hk => ?_⟩
    cases k with
    | zero => simp [hb]
    | succ k => simpa using i2 k (by simpa using hk)

/-- C65: selection of states: `states_isel` counts the states of the results; `states_sel` gives labels, of the states selected by `states_isel` if both are given. -/
theorem C65_selected (isel sel : Option (List ℕ)) (sts ss : List St) (h : select isel sel sts = some ss) :
    ∃ mid, (isel = none → mid = sts) ∧ (∀ is, isel = some is → mid.length = is.length ∧ ∀ k (hk : k < is.length), sts[is[k]]? = mid[k]?) ∧
      (sel = none → ss = mid) ∧ (∀ ls, sel = some ls → ss.map St.label = ls ∧ ∀ s ∈ ss, s ∈ mid) := by
  simp only [select, Option.bind_eq_some_iff] at h
  obtain ⟨mid, h1, h2⟩ := h
  refine ⟨mid, ?_, ?_, ?_, ?_⟩
  · rintro rfl; simpa using h1.symm
  · rintro is rfl
    simp only [Option.elim_some, iselect] at h1
    exact mapM_get h1
  · rintro rfl; simpa using h2.symm
  · rintro ls rfl
    simp only [Option.elim_some, lselect] at h2
    obtain ⟨i1, i2⟩ := mapM_get h2
    constructor
    · apply List.ext_getElem (by simp [i1])
      intro k hk1 hk2
      have := i2 k hk2
      rw [List.getElem?_eq_getElem (by simpa using hk1)] at this
      simpa using List.find?_some this
    · intro s hs
      obtain ⟨k, hk, rfl⟩ := List.mem_iff_getElem.1 hs
      have := i2 k (by omega)
      rw [List.getElem?_eq_getElem hk] at this
      exact List.mem_of_find?_eq_some this

/-! ### Examples -/

/-- Two turbines in one state, and a state with weight 1/2. -/
def exSts : List St := [⟨7, [⟨0, 0, 100⟩, ⟨1000, 500, 120⟩]⟩, ⟨8, [⟨0, 0, 100⟩, ⟨1000, 500, 120⟩]⟩]

/-- A flow with a wind speed that depends on the point and a constant. -/
def exFlow : Flow := ⟨[("WS", fun s p => s.label + p.x), ("K", fun _ _ => 3)], .inl fun _ => 1 / 2⟩

/-- The grid of the example: 3 x 2 points, one state selected. -/
def exGrid : Grid := ⟨[-500, 500, 1500], [-500, 1000], 110, [[⟨-500, -500, 110⟩, ⟨-500, 1000, 110⟩, ⟨500, -500, 110⟩, ⟨500, 1000, 110⟩, ⟨1500, -500, 110⟩, ⟨1500, 1000, 110⟩]]⟩

lemma exGrid_eq : gridXY exSts none (some (3, 2)) none none none none none 500 500 none (some [1]) = some exGrid := by
  have hmin : ([0, 1000] : List ℝ).min? = some 0 := by rw [List.min?_eq_some_iff]; norm_num
  have hmax : ([0, 1000] : List ℝ).max? = some 1000 := by rw [List.max?_eq_some_iff]; norm_num
  have hmin2 : ([0, 500] : List ℝ).min? = some 0 := by rw [List.min?_eq_some_iff]; norm_num
  have hmax2 : ([0, 500] : List ℝ).max? = some 500 := by rw [List.max?_eq_some_iff]; norm_num
  have hmin3 : ([100, 120] : List ℝ).min? = some 100 := by rw [List.min?_eq_some_iff]; norm_num
  have hmax3 : ([100, 120] : List ℝ).max? = some 120 := by rw [List.max?_eq_some_iff]; norm_num
  simp only [gridXY, select, iselect, exSts, Option.elim_some, Option.elim_none, List.mapM_cons, List.mapM_nil, Option.bind_eq_bind, pure, Option.bind_some, List.getElem?_cons_succ,
    List.getElem?_cons_zero, allTurbs, List.flatMap_cons, List.flatMap_nil, List.append_nil, List.map_cons, List.map_nil, lower, upper, plane, hmin, hmax, hmin2, hmax2, hmin3, hmax3,
    Option.map_some, counts]
  simp [linspace, List.range_succ, flatten, exGrid]
  norm_num

/-- C65: the theorems apply to a concrete case: the second of two states. -/
example : Call exFlow exSts [⟨8, [⟨0, 0, 100⟩, ⟨1000, 500, 120⟩]⟩] .xy 270 exGrid {} none (some [1]) ["WS", "K"] := by
  obtain ⟨ss, h1, h2⟩ := C65_grid_xy _ _ _ _ _ _ _ _ _ _ _ _ _ exGrid_eq 270
  have e : select (some [1]) none exSts = some [⟨8, [⟨0, 0, 100⟩, ⟨1000, 500, 120⟩]⟩] := by
    simp [select, iselect, exSts]
  rw [e] at h1
  obtain rfl := Option.some.inj h1
  exact ⟨e, by simp, h2, by decide +kernel, by simp [exFlow], by decide⟩

/-- C65: so the mean of the constant 3 over the selected state is reported as 3/2. -/
example : ∃ r d, meanSlice exFlow exSts .xy .xarray (some ["WS", "K"]) (some exGrid) {} none (some [1]) = some r ∧ r.data = .xarray d ∧
    atCoords d "K" [("x", 500), ("y", 1000)] = some (3 / 2) := by
  obtain ⟨ss, h1, h2⟩ := C65_grid_xy _ _ _ _ _ _ _ _ _ _ _ _ _ exGrid_eq 270
  have e : select (some [1]) none exSts = some [⟨8, [⟨0, 0, 100⟩, ⟨1000, 500, 120⟩]⟩] := by
    simp [select, iselect, exSts]
  rw [e] at h1
  obtain rfl := Option.some.inj h1
  have hcall : Call exFlow exSts [⟨8, [⟨0, 0, 100⟩, ⟨1000, 500, 120⟩]⟩] .xy 270 exGrid {} none (some [1]) ["WS", "K"] :=
    ⟨e, by simp, h2, by decide +kernel, by simp [exFlow], by decide⟩
  obtain ⟨r, d, h3, h4, h5⟩ := C65_mean_constant_partial hcall (by simp [exGrid]; norm_num) (by simp [exGrid]; norm_num) rfl (fun _ => 1 / 2) rfl "K" (by simp) 3 rfl
  refine ⟨r, d, h3, h4, ?_⟩
  have := h5 1 (by simp [exGrid]) 1 (by simp [exGrid])
  simp only [exGrid, Ori.a, Ori.b] at this
  norm_num at this
  rw [← this]

end

end Foxes.Props.Slice
