import Verif.Model.Shapes
import Verif.Props.Geom2d
/-
C80: areas from shapefiles.
-/
namespace Foxes.Props.Shapes
open Foxes.Shapes Foxes.Geom2d Foxes.Props.Geom2d

variable {Z : Type}

/-! ## Specification -/

/-- the polygons of a geometry -/
def parts : Geo → List Part
  | .polygon p => [p]
  | .multi ps => ps
  | .other => []

/-- `r` is the first row with the name `n` -/
def FirstRow (rows : List Row) (n : String) (r : Row) : Prop := ∃ l1 l2, rows = l1 ++ r :: l2 ∧ r.name = some n ∧ ∀ q ∈ l1, q.name ≠ some n

/-- the names that are read: those the user asked for, by default all of the file -/
def Wanted (rows : List Row) (names : Option (List String)) (n : String) : Prop :=
  match names with
  | none => ∃ q ∈ rows, q.name = some n
  | some l => n ∈ l

/-- a part that is read: of the first row with a wanted name -/
def Read (rows : List Row) (names : Option (List String)) (p : Part) : Prop :=
  ∃ n r, Wanted rows names n ∧ FirstRow rows n r ∧ p ∈ parts r.geo

/-- what is needed of the conversion: a given zone is used, using the zone it found gives the same points, and nothing is lost -/
structure ConvOk (c : Conv Z) : Prop where
  forced : ∀ z lat lon, (c (some z) lat lon).2 = z
  same : ∀ lat lon, c (some (c none lat lon).2) lat lon = c none lat lon
  length : ∀ z lat lon, (c z lat lon).1.length = lat.length

/-- the points of a ring in the coordinates of a zone (longitude is the real part) -/
noncomputable def toZone (c : Conv Z) (z : Z) (l : List ℂ) : List ℂ := (c (some z) (l.map fun x => x.im) (l.map fun x => x.re)).1

/-! ## Trees of coordinates -/

mutual
/-- rings with points, in order -/
def rings : Tree → List (List ℂ)
  | .pts l => if l = [] then [] else [l]
  | .node ts => ringsAll ts
def ringsAll : List Tree → List (List ℂ)
  | [] => []
  | t :: ts => rings t ++ ringsAll ts
end

mutual
/-- all rings by a function -/
def mapTree (f : List ℂ → List ℂ) : Tree → Tree
  | .pts l => if l = [] then .node [] else .pts (f l)
  | .node ts => .node (mapAll f ts)
def mapAll (f : List ℂ → List ℂ) : List Tree → List Tree
  | [] => []
  | t :: ts => mapTree f t :: mapAll f ts
end

mutual
theorem rings_map {f : List ℂ → List ℂ} (hf : ∀ l, l ≠ [] → f l ≠ []) : ∀ t, rings (mapTree f t) = (rings t).map f
  | .pts l => by
    by_cases h : l = []
    · simp [mapTree, rings, ringsAll, h]
    · simp [mapTree, rings, h, hf l h]
  | .node ts => by simp only [mapTree, rings]; exact ringsAll_map hf ts
theorem ringsAll_map {f : List ℂ → List ℂ} (hf : ∀ l, l ≠ [] → f l ≠ []) : ∀ ts, ringsAll (mapAll f ts) = (ringsAll ts).map f
  | [] => rfl
  | t :: ts => by simp only [mapAll, ringsAll, List.map_append, rings_map hf t, ringsAll_map hf ts]
end

/-- which function the rings have been converted with, if the zone is now `zs` -/
def Compat (conv : Option (Conv Z)) (zs : Option Z) (f : List ℂ → List ℂ) : Prop :=
  match conv with
  | none => f = id
  | some c => ∀ z, zs = some z → f = toZone c z

/-- the zone after some rings -/
def zoneAfter (conv : Option (Conv Z)) (zs : Option Z) (l : List (List ℂ)) : Option Z :=
  match conv with
  | none => zs
  | some c => zs.or (l.head?.map fun l => (c none (l.map fun x => x.im) (l.map fun x => x.re)).2)

theorem zoneAfter_append (conv : Option (Conv Z)) (zs : Option Z) (l m : List (List ℂ)) : zoneAfter conv (zoneAfter conv zs l) m = zoneAfter conv zs (l ++ m) := by
  cases conv with
  | none => rfl
  | some c => cases l <;> cases zs <;> simp [zoneAfter]

theorem zoneAfter_nil (conv : Option (Conv Z)) (zs : Option Z) : zoneAfter conv zs [] = zs := by
  cases conv <;> cases zs <;> rfl

theorem compat_before {conv : Option (Conv Z)} {zs : Option Z} {l : List (List ℂ)} {f : List ℂ → List ℂ} (h : Compat conv (zoneAfter conv zs l) f) : Compat conv zs f := by
  cases conv with
  | none => exact h
  | some c =>
    intro z hz
    refine h z ?_
    simp [zoneAfter, hz]

def OkConv (conv : Option (Conv Z)) : Prop := ∀ c, conv = some c → ConvOk c

mutual
theorem toNumpy_spec {conv : Option (Conv Z)} (hc : OkConv conv) : ∀ (t : Tree) (zs : Option Z),
    (toNumpy conv t zs).2 = zoneAfter conv zs (rings t) ∧ ∀ f, Compat conv (zoneAfter conv zs (rings t)) f → (toNumpy conv t zs).1 = mapTree f t
  | .pts l, zs => by
    by_cases h : l = []
    · simp [toNumpy, h, rings, mapTree, zoneAfter_nil]
    · cases conv with
      | none =>
        simp only [toNumpy, h, if_false, rings, mapTree, zoneAfter, true_and]
        intro f hf
        have : f = id := hf
        rw [this]; rfl
      | some c =>
        have ok := hc c rfl
        simp only [toNumpy, h, if_false, rings, mapTree, zoneAfter, List.head?_cons, Option.map_some]
        cases zs with
        | none =>
          refine ⟨by simp, fun f hf => ?_⟩
          have := hf _ (by simp; rfl)
          rw [this, toZone, ok.same]
        | some z =>
          refine ⟨by simp [ok.forced], fun f hf => ?_⟩
          have := hf z (by simp)
          rw [this]; rfl
  | .node ts, zs => by
    obtain ⟨h1, h2⟩ := toNumpyAll_spec hc ts zs
    exact ⟨by simp only [toNumpy, rings, h1], fun f hf => by simp only [toNumpy, mapTree, h2 f hf]⟩
theorem toNumpyAll_spec {conv : Option (Conv Z)} (hc : OkConv conv) : ∀ (ts : List Tree) (zs : Option Z),
    (toNumpyAll conv ts zs).2 = zoneAfter conv zs (ringsAll ts) ∧ ∀ f, Compat conv (zoneAfter conv zs (ringsAll ts)) f → (toNumpyAll conv ts zs).1 = mapAll f ts
  | [], zs => by simp [toNumpyAll, ringsAll, zoneAfter_nil, mapAll]
  | t :: ts, zs => by
    obtain ⟨h1, h2⟩ := toNumpy_spec hc t zs
    obtain ⟨h3, h4⟩ := toNumpyAll_spec hc ts (zoneAfter conv zs (rings t))
    simp only [toNumpyAll, ringsAll, mapAll, h1, h3, zoneAfter_append]
    rw [zoneAfter_append] at h4
    refine ⟨trivial, fun f hf => ?_⟩
    rw [h4 f hf, h2 f (compat_before (l := ringsAll ts) (by rw [zoneAfter_append]; exact hf))]
end

/-! ## Reading -/

theorem mem_setKey {d : List (String × Tree)} {n m : String} {t u : Tree} : (m, u) ∈ setKey d n t ↔ (m = n ∧ u = t) ∨ (m ≠ n ∧ (m, u) ∈ d) := by
  unfold setKey
  by_cases h : d.any (fun p => p.1 == n) = true
  · rw [if_pos h]
    simp only [List.mem_map]
    constructor
    · rintro ⟨p, hp, e⟩
      by_cases hn : p.1 = n
      · simp only [hn, beq_self_eq_true, if_true, Prod.mk.injEq] at e
        exact Or.inl ⟨e.1.symm, e.2.symm⟩
      · have : (p.1 == n) = false := by simpa using hn
        simp only [this, Bool.false_eq_true, if_false] at e
        subst e
        exact Or.inr ⟨hn, hp⟩
    · rintro (⟨rfl, rfl⟩ | ⟨h1, h2⟩)
      · obtain ⟨p, hp, hpn⟩ := List.any_eq_true.1 h
        exact ⟨p, hp, by simp [hpn]⟩
      · refine ⟨(m, u), h2, ?_⟩
        have : (m == n) = false := by simpa using h1
        simp [this]
  · rw [if_neg h]
    have hno : ∀ u, (n, u) ∉ d := fun u hu => h (List.any_eq_true.2 ⟨(n, u), hu, by simp⟩)
    simp only [List.mem_append, List.mem_singleton, Prod.mk.injEq]
    constructor
    · rintro (h1 | h1)
      · refine Or.inr ⟨?_, h1⟩
        rintro rfl
        exact hno _ h1
      · exact Or.inl h1
    · rintro (h1 | h1)
      · exact Or.inr h1
      · exact Or.inl h1.2

theorem find_first {rows : List Row} {n : String} {r : Row} (h : rows.find? (fun r => r.name == some n) = some r) : FirstRow rows n r := by
  obtain ⟨h1, l1, l2, h2, h3⟩ := List.find?_eq_some_iff_append.1 h
  exact ⟨l1, l2, h2, by simpa using h1, fun q hq e => by simpa [e] using h3 q hq⟩

theorem first_find {rows : List Row} {n : String} {r : Row} (h : FirstRow rows n r) : rows.find? (fun r => r.name == some n) = some r := by
  obtain ⟨l1, l2, h1, h2, h3⟩ := h
  refine List.find?_eq_some_iff_append.2 ⟨by simp [h2], l1, l2, h1, fun q hq => by simpa using h3 q hq⟩

/-- exterior and interior coordinates of the first row with the name -/
def coords (rows : List Row) (n : String) (e : Tree × Tree) : Prop := ∃ r, FirstRow rows n r ∧ extract r.geo = some e

theorem coords_unique {rows : List Row} {n : String} {e e' : Tree × Tree} (h : coords rows n e) (h' : coords rows n e') : e = e' := by
  obtain ⟨r, h1, h2⟩ := h
  obtain ⟨r', h1', h2'⟩ := h'
  have : r = r' := Option.some.inj ((first_find h1).symm.trans (first_find h1'))
  subst this
  exact Option.some.inj (h2.symm.trans h2')

/-- all rings that are read, in order -/
def readRings (rows : List Row) : List (Option String) → List (List ℂ)
  | [] => []
  | none :: l => readRings rows l
  | some n :: l => (((rows.find? fun r => r.name == some n).bind fun r => extract r.geo).elim [] fun e => rings e.1 ++ rings e.2) ++ readRings rows l

theorem readRings_append (rows : List Row) : ∀ (l m : List (Option String)), readRings rows (l ++ m) = readRings rows l ++ readRings rows m
  | [], _ => rfl
  | none :: l, m => by simp only [List.cons_append, readRings]; exact readRings_append rows l m
  | some n :: l, m => by simp only [List.cons_append, readRings, readRings_append rows l m, List.append_assoc]

/-- what has been read after the names `done` -/
structure ReadInv (conv : Option (Conv Z)) (zone : Option Z) (rows : List Row) (done : List (Option String)) (a : Acc Z) : Prop where
  zone_eq : a.zone = zoneAfter conv zone (readRings rows done)
  found : ∀ n, some n ∈ done → ∃ e, coords rows n e
  ext : ∀ f, Compat conv a.zone f → ∀ n t, (n, t) ∈ a.ext ↔ some n ∈ done ∧ ∃ e, coords rows n e ∧ t = mapTree f e.1
  int : ∀ f, Compat conv a.zone f → ∀ n t, (n, t) ∈ a.int ↔ some n ∈ done ∧ ∃ e, coords rows n e ∧ t = mapTree f e.2

theorem read_step {conv : Option (Conv Z)} (hc : OkConv conv) {zone : Option Z} {rows : List Row} {done : List (Option String)} {a b : Acc Z} {name : Option String}
    (ha : ReadInv conv zone rows done a) (h : readName conv rows a name = some b) : ReadInv conv zone rows (done ++ [name]) b := by
  cases name with
  | none =>
    cases h
    refine ⟨by rw [readRings_append]; simpa [readRings] using ha.zone_eq, ?_, ?_, ?_⟩
    · intro n hn; exact ha.found n (by simpa using hn)
    · intro f hf n t; rw [ha.ext f hf n t]; simp
    · intro f hf n t; rw [ha.int f hf n t]; simp
  | some n =>
    simp only [readName] at h
    cases hr : rows.find? (fun r => r.name == some n) with
    | none => rw [hr] at h; cases h
    | some r =>
      rw [hr] at h
      simp only [Option.bind_some] at h
      cases he : extract r.geo with
      | none => rw [he] at h; cases h
      | some e =>
        rw [he] at h
        simp only [Option.map_some, Option.some.injEq] at h
        have hco : coords rows n e := ⟨r, find_first hr, he⟩
        obtain ⟨x1, x2⟩ := toNumpy_spec hc e.1 a.zone
        obtain ⟨y1, y2⟩ := toNumpy_spec hc e.2 (toNumpy conv e.1 a.zone).2
        rw [x1, zoneAfter_append] at y1 y2
        have hz : b.zone = zoneAfter conv a.zone (rings e.1 ++ rings e.2) := by rw [← h, x1]; exact y1
        have hb : ∀ f, Compat conv b.zone f → Compat conv a.zone f ∧ (toNumpy conv e.1 a.zone).1 = mapTree f e.1 ∧ (toNumpy conv e.2 (toNumpy conv e.1 a.zone).2).1 = mapTree f e.2 := by
          intro f hf
          rw [hz] at hf
          refine ⟨compat_before hf, x2 f ?_, ?_⟩
          · rw [← zoneAfter_append] at hf; exact compat_before hf
          · rw [x1]; exact y2 f hf
        refine ⟨?_, ?_, ?_, ?_⟩
        · rw [hz, ha.zone_eq, zoneAfter_append, readRings_append]
          simp [readRings, hr, he]
        · intro m hm
          rcases List.mem_append.1 hm with hm | hm
          · exact ha.found m hm
          · simp only [List.mem_singleton, Option.some.injEq] at hm
            subst hm; exact ⟨e, hco⟩
        · intro f hf m t
          obtain ⟨f1, f2, f3⟩ := hb f hf
          have : b.ext = setKey a.ext n (toNumpy conv e.1 a.zone).1 := by rw [← h]
          rw [this, mem_setKey, ha.ext f f1 m t, f2]
          simp only [List.mem_append, List.mem_singleton, Option.some.injEq]
          constructor
          · rintro (⟨rfl, rfl⟩ | ⟨h1, h2, h3⟩)
            · exact ⟨Or.inr rfl, e, hco, rfl⟩
            · exact ⟨Or.inl h2, h3⟩
          · rintro ⟨h1, e', h2, h3⟩
            by_cases hm : m = n
            · subst hm
              left
              rw [coords_unique h2 hco] at h3
              exact ⟨rfl, h3⟩
            · right
              exact ⟨hm, by tauto, e', h2, h3⟩
        · intro f hf m t
          obtain ⟨f1, f2, f3⟩ := hb f hf
          have : b.int = setKey a.int n (toNumpy conv e.2 (toNumpy conv e.1 a.zone).2).1 := by rw [← h]
          rw [this, mem_setKey, ha.int f f1 m t, f3]
          simp only [List.mem_append, List.mem_singleton, Option.some.injEq]
          constructor
          · rintro (⟨rfl, rfl⟩ | ⟨h1, h2, h3⟩)
            · exact ⟨Or.inr rfl, e, hco, rfl⟩
            · exact ⟨Or.inl h2, h3⟩
          · rintro ⟨h1, e', h2, h3⟩
            by_cases hm : m = n
            · subst hm
              left
              rw [coords_unique h2 hco] at h3
              exact ⟨rfl, h3⟩
            · right
              exact ⟨hm, by tauto, e', h2, h3⟩

theorem read_all {conv : Option (Conv Z)} (hc : OkConv conv) {zone : Option Z} {rows : List Row} : ∀ (l done : List (Option String)) (a b : Acc Z), ReadInv conv zone rows done a →
    l.foldlM (readName conv rows) a = some b → ReadInv conv zone rows (done ++ l) b
  | [], done, a, b, ha, h => by cases h; simpa using ha
  | n :: l, done, a, b, ha, h => by
    rw [List.foldlM_cons] at h
    cases h1 : readName conv rows a n with
    | none => rw [h1] at h; cases h
    | some a' =>
      rw [h1] at h
      have := read_all hc l (done ++ [n]) a' b (read_step hc ha h1) h
      simpa using this

theorem read_inv {conv : Option (Conv Z)} (hc : OkConv conv) {zone : Option Z} {rows : List Row} {names : Option (List String)} {a : Acc Z} (h : readPolygons conv zone rows names = some a) :
    ReadInv conv zone rows (namesOf rows names) a := by
  have base : ReadInv conv zone rows [] ⟨[], [], zone⟩ := ⟨by simp [readRings, zoneAfter_nil], by simp, by simp, by simp⟩
  have := read_all (conv := conv) (zone := zone) (rows := rows) hc (namesOf rows names) [] ⟨[], [], zone⟩ a base h
  simpa using this

/-! ## Geometries -/

section Geometry

variable {contains : List ℂ → ℂ → Bool}

mutual
theorem create_spec (p : ℂ) : ∀ t : Tree, (rings t = [] → createGeom contains t = none) ∧ (rings t ≠ [] → ∃ g, createGeom contains t = some g ∧ (inside g p = true ↔ ∃ l ∈ rings t, contains l p = true))
  | .pts l => by
    by_cases h : l = []
    · simp [createGeom, rings, h]
    · simp [createGeom, rings, h, inside]
  | .node ts => by
    obtain ⟨h1, h2⟩ := createAll_spec p ts
    simp only [createGeom, rings]
    refine ⟨fun h => by simp [h1.2 h], fun h => ?_⟩
    rw [if_neg (fun e => h (h1.1 e))]
    exact ⟨_, rfl, by rw [inside_union]; exact h2⟩
theorem createAll_spec (p : ℂ) : ∀ ts : List Tree, (createAll contains ts = [] ↔ ringsAll ts = []) ∧ ((∃ g ∈ createAll contains ts, inside g p = true) ↔ ∃ l ∈ ringsAll ts, contains l p = true)
  | [] => by simp [createAll, ringsAll]
  | t :: ts => by
    obtain ⟨h1, h2⟩ := create_spec p t
    obtain ⟨h3, h4⟩ := createAll_spec p ts
    by_cases hr : rings t = []
    · simp only [createAll, ringsAll, h1 hr, hr, Option.toList_none, List.nil_append]
      exact ⟨h3, h4⟩
    · obtain ⟨g, hg, hi⟩ := h2 hr
      simp only [createAll, ringsAll, hg, Option.toList_some]
      refine ⟨by simp [hr], ?_⟩
      simp only [List.mem_append, List.mem_singleton, or_and_right, exists_or, exists_eq_left, hi, h4]
end

theorem mem_ringsAll {l : List ℂ} : ∀ {ts : List Tree}, l ∈ ringsAll ts ↔ ∃ t ∈ ts, l ∈ rings t
  | [] => by simp [ringsAll]
  | t :: ts => by simp [ringsAll, mem_ringsAll (ts := ts)]

theorem rings_ne {t : Tree} {l : List ℂ} (h : l ∈ rings (.node [t])) : l ∈ rings t := by simpa [rings, ringsAll] using h

theorem mem_pts {l m : List ℂ} : m ∈ rings (.pts l) ↔ m = l ∧ l ≠ [] := by
  by_cases h : l = []
  · simp [rings, h]
  · simp [rings, h]

/-- the rings with points of what is extracted from a geometry: exteriors and holes of its parts -/
theorem extract_rings {g : Geo} {e : Tree × Tree} (h : extract g = some e) (l : List ℂ) :
    (l ∈ rings e.1 ↔ ∃ q ∈ parts g, q.ext = l ∧ l ≠ []) ∧ (l ∈ rings e.2 ↔ ∃ q ∈ parts g, l ∈ q.holes ∧ l ≠ []) := by
  cases g with
  | other => cases h
  | polygon q =>
    cases h
    have h0 : l ∈ rings (extractPart q).1 ↔ l = q.ext ∧ q.ext ≠ [] := mem_pts
    rw [h0]
    simp only [extractPart, parts, List.mem_singleton, exists_eq_left, rings, mem_ringsAll, List.mem_map]
    refine ⟨⟨fun h => ⟨h.1.symm, h.1 ▸ h.2⟩, fun h => ⟨h.1.symm, h.1 ▸ h.2⟩⟩, ?_⟩
    constructor
    · rintro ⟨t, ⟨a, ha, rfl⟩, hl⟩
      obtain ⟨rfl, h2⟩ := mem_pts.1 hl
      exact ⟨ha, h2⟩
    · rintro ⟨h1, h2⟩
      exact ⟨_, ⟨l, h1, rfl⟩, mem_pts.2 ⟨rfl, h2⟩⟩
  | multi ps =>
    cases h
    simp only [extractPart, parts, rings, mem_ringsAll, List.mem_map]
    constructor
    · constructor
      · rintro ⟨t, ⟨q, hq, rfl⟩, hl⟩
        obtain ⟨rfl, h2⟩ := mem_pts.1 hl
        exact ⟨q, hq, rfl, h2⟩
      · rintro ⟨q, hq, rfl, h2⟩
        exact ⟨_, ⟨q, hq, rfl⟩, mem_pts.2 ⟨rfl, h2⟩⟩
    · constructor
      · rintro ⟨t, ⟨q, hq, rfl⟩, hl⟩
        simp only [rings, mem_ringsAll, List.mem_map] at hl
        obtain ⟨t, ⟨a, ha, rfl⟩, hl⟩ := hl
        obtain ⟨rfl, h2⟩ := mem_pts.1 hl
        exact ⟨q, hq, ha, h2⟩
      · rintro ⟨q, hq, h1, h2⟩
        refine ⟨_, ⟨q, hq, rfl⟩, ?_⟩
        simp only [rings, mem_ringsAll, List.mem_map]
        exact ⟨_, ⟨l, h1, rfl⟩, mem_pts.2 ⟨rfl, h2⟩⟩

theorem mem_namesOf {rows : List Row} {names : Option (List String)} {n : String} :
    some n ∈ namesOf rows names ↔ Wanted rows names n := by
  cases names <;> simp [namesOf, Wanted]

theorem first_unique {rows : List Row} {n : String} {r r' : Row} (h : FirstRow rows n r) (h' : FirstRow rows n r') : r = r' :=
  Option.some.inj ((first_find h).symm.trans (first_find h'))

/-- the rings of the collected exterior and interior coordinates -/
theorem acc_rings {conv : Option (Conv Z)} (hc : OkConv conv) {zone : Option Z} {rows : List Row} {names : Option (List String)} {a : Acc Z} (h : readPolygons conv zone rows names = some a)
    {f : List ℂ → List ℂ} (hf : Compat conv a.zone f) (hne : ∀ l, l ≠ [] → f l ≠ []) (m : List ℂ) :
    (m ∈ ringsAll (a.ext.map (·.2)) ↔ ∃ q, Read rows names q ∧ q.ext ≠ [] ∧ m = f q.ext) ∧
    (m ∈ ringsAll (a.int.map (·.2)) ↔ ∃ q, Read rows names q ∧ ∃ l ∈ q.holes, l ≠ [] ∧ m = f l) := by
  have inv := read_inv hc h
  constructor
  · rw [mem_ringsAll]
    constructor
    · rintro ⟨t, ht, hm⟩
      obtain ⟨⟨n, t'⟩, hp, rfl⟩ := List.mem_map.1 ht
      obtain ⟨hn, e, ⟨r, hr, he⟩, rfl⟩ := (inv.ext f hf n t').1 hp
      simp only [rings_map hne, List.mem_map] at hm
      obtain ⟨l, hl, rfl⟩ := hm
      obtain ⟨q, hq, rfl, hl⟩ := ((extract_rings he l).1).1 hl
      exact ⟨q, ⟨n, r, mem_namesOf.1 hn, hr, hq⟩, hl, rfl⟩
    · rintro ⟨q, ⟨n, r, hn, hr, hq⟩, hl, rfl⟩
      have hn := mem_namesOf.2 hn
      obtain ⟨e, he⟩ := inv.found n hn
      have hee := he
      obtain ⟨r', hr', he'⟩ := he
      have := first_unique hr hr'; subst this
      refine ⟨mapTree f e.1, List.mem_map.2 ⟨(n, mapTree f e.1), (inv.ext f hf _ _).2 ⟨hn, e, hee, rfl⟩, rfl⟩, ?_⟩
      rw [rings_map hne]
      exact List.mem_map.2 ⟨q.ext, ((extract_rings he' _).1).2 ⟨q, hq, rfl, hl⟩, rfl⟩
  · rw [mem_ringsAll]
    constructor
    · rintro ⟨t, ht, hm⟩
      obtain ⟨⟨n, t'⟩, hp, rfl⟩ := List.mem_map.1 ht
      obtain ⟨hn, e, ⟨r, hr, he⟩, rfl⟩ := (inv.int f hf n t').1 hp
      simp only [rings_map hne, List.mem_map] at hm
      obtain ⟨l, hl, rfl⟩ := hm
      obtain ⟨q, hq, hl, hl'⟩ := ((extract_rings he l).2).1 hl
      exact ⟨q, ⟨n, r, mem_namesOf.1 hn, hr, hq⟩, l, hl, hl', rfl⟩
    · rintro ⟨q, ⟨n, r, hn, hr, hq⟩, l, hl, hl', rfl⟩
      have hn := mem_namesOf.2 hn
      obtain ⟨e, he⟩ := inv.found n hn
      have hee := he
      obtain ⟨r', hr', he'⟩ := he
      have := first_unique hr hr'; subst this
      refine ⟨mapTree f e.2, List.mem_map.2 ⟨(n, mapTree f e.2), (inv.int f hf _ _).2 ⟨hn, e, hee, rfl⟩, rfl⟩, ?_⟩
      rw [rings_map hne]
      exact List.mem_map.2 ⟨l, ((extract_rings he' _).2).2 ⟨q, hq, hl, hl'⟩, rfl⟩

/-- some exterior with points is read -/
def SomeArea (rows : List Row) (names : Option (List String)) : Prop := ∃ q, Read rows names q ∧ q.ext ≠ []

theorem geom_inside {conv : Option (Conv Z)} (hc : OkConv conv) {zone : Option Z} {rows : List Row} {names : Option (List String)} {a : Acc Z} (h : readPolygons conv zone rows names = some a)
    {f : List ℂ → List ℂ} (hf : Compat conv a.zone f) (hne : ∀ l, l ≠ [] → f l ≠ []) {g : Geom} (hg : shp2geom contains conv zone rows names = some (some g)) (p : ℂ) :
    inside g p = true ↔ (∃ q, Read rows names q ∧ q.ext ≠ [] ∧ contains (f q.ext) p = true) ∧ ¬ ∃ q, Read rows names q ∧ ∃ l ∈ q.holes, l ≠ [] ∧ contains (f l) p = true := by
  have hr := acc_rings hc h hf hne
  have hE : (∃ l ∈ ringsAll (a.ext.map (·.2)), contains l p = true) ↔ ∃ q, Read rows names q ∧ q.ext ≠ [] ∧ contains (f q.ext) p = true := by
    constructor
    · rintro ⟨l, hl, hp⟩
      obtain ⟨q, h1, h2, rfl⟩ := (hr l).1.1 hl
      exact ⟨q, h1, h2, hp⟩
    · rintro ⟨q, h1, h2, hp⟩
      exact ⟨_, (hr _).1.2 ⟨q, h1, h2, rfl⟩, hp⟩
  have hI : (∃ l ∈ ringsAll (a.int.map (·.2)), contains l p = true) ↔ ∃ q, Read rows names q ∧ ∃ l ∈ q.holes, l ≠ [] ∧ contains (f l) p = true := by
    constructor
    · rintro ⟨l, hl, hp⟩
      obtain ⟨q, h1, m, h2, h3, rfl⟩ := (hr l).2.1 hl
      exact ⟨q, h1, m, h2, h3, hp⟩
    · rintro ⟨q, h1, m, h2, h3, hp⟩
      exact ⟨_, (hr _).2.2 ⟨q, h1, m, h2, h3, rfl⟩, hp⟩
  rw [← hE, ← hI]
  simp only [shp2geom, h, Option.bind_some] at hg
  obtain ⟨e1, e2⟩ := create_spec (contains := contains) p (.node (a.ext.map (·.2)))
  obtain ⟨i1, i2⟩ := create_spec (contains := contains) p (.node (a.int.map (·.2)))
  simp only [rings] at e1 e2 i1 i2
  by_cases hi : ringsAll (a.int.map (·.2)) = []
  · rw [i1 hi] at hg
    simp only [Option.some.injEq] at hg
    by_cases he : ringsAll (a.ext.map (·.2)) = []
    · rw [e1 he] at hg; cases hg
    · obtain ⟨g', h1, h2⟩ := e2 he
      rw [h1] at hg; cases hg
      rw [h2, hi]; simp
  · obtain ⟨k, k1, k2⟩ := i2 hi
    rw [k1] at hg
    by_cases he : ringsAll (a.ext.map (·.2)) = []
    · rw [e1 he] at hg; simp at hg
    · obtain ⟨g', h1, h2⟩ := e2 he
      rw [h1] at hg
      simp only [Option.some.injEq] at hg
      subst hg
      have u1 : ∃ l, g' = .union l := by
        simp only [createGeom] at h1
        by_cases hh : createAll contains (a.ext.map (·.2)) = []
        · rw [if_pos hh] at h1; cases h1
        · rw [if_neg hh] at h1; exact ⟨_, (Option.some.inj h1).symm⟩
      have u2 : ∃ l, k = .union l := by
        simp only [createGeom] at k1
        by_cases hh : createAll contains (a.int.map (·.2)) = []
        · rw [if_pos hh] at k1; cases k1
        · rw [if_neg hh] at k1; exact ⟨_, (Option.some.inj k1).symm⟩
      obtain ⟨l1, rfl⟩ := u1
      obtain ⟨l2, rfl⟩ := u2
      rw [C37_difference _ _ p (by rintro ⟨c, n, h, _⟩; cases h) (by intro c n h; cases h) (by intro c n h; cases h), h2, k2]

end Geometry

/-! ## C80 -/

/-- the set described by the polygons `Q`, with rings in the coordinates given by `f`: all exteriors, without all holes -/
def AreaOf (contains : List ℂ → ℂ → Bool) (f : List ℂ → List ℂ) (Q : Part → Prop) (p : ℂ) : Prop :=
  (∃ q, Q q ∧ q.ext ≠ [] ∧ contains (f q.ext) p = true) ∧ ∀ q, Q q → ∀ l ∈ q.holes, l ≠ [] → ¬ contains (f l) p = true

/-- the point is in a polygon of the file: in the exterior, and in none of *its* holes -/
def InPart (contains : List ℂ → ℂ → Bool) (f : List ℂ → List ℂ) (q : Part) (p : ℂ) : Prop :=
  q.ext ≠ [] ∧ contains (f q.ext) p = true ∧ ∀ l ∈ q.holes, l ≠ [] → ¬ contains (f l) p = true

theorem read_some {contains : List ℂ → ℂ → Bool} {conv : Option (Conv Z)} {zone : Option Z} {rows : List Row} {names : Option (List String)} {x : Option Geom}
    (h : shp2geom contains conv zone rows names = some x) : ∃ a, readPolygons conv zone rows names = some a := by
  cases hr : readPolygons conv zone rows names with
  | none => simp [shp2geom, hr] at h
  | some a => exact ⟨a, rfl⟩

/-- **C80 (area, no conversion).** The points inside are those of the exteriors of the first rows with the wanted names (by default all names of
the file), without the holes of these. -/
theorem C80_plain (contains : List ℂ → ℂ → Bool) (zone : Option Z) (rows : List Row) (names : Option (List String)) (g : Geom)
    (h : shp2geom contains none zone rows names = some (some g)) (p : ℂ) : inside g p = true ↔ AreaOf contains id (Read rows names) p := by
  obtain ⟨a, ha⟩ := read_some h
  have := geom_inside (contains := contains) (conv := none) (by intro c hc; cases hc) ha (f := id) rfl (fun l hl => hl) h p
  rw [this, AreaOf]
  simp only [id]
  push Not
  exact Iff.rfl

/-- the zone of some rings is known if there is one -/
theorem mem_readRings {rows : List Row} {m : List ℂ} : ∀ {l : List (Option String)}, m ∈ readRings rows l → ∃ n r q, some n ∈ l ∧ FirstRow rows n r ∧ q ∈ parts r.geo ∧ m ≠ [] ∧ (m = q.ext ∨ m ∈ q.holes)
  | [], h => by cases h
  | none :: l, h => by
    obtain ⟨n, r, q, h1, h2⟩ := mem_readRings (l := l) h
    exact ⟨n, r, q, List.mem_cons_of_mem _ h1, h2⟩
  | some n :: l, h => by
    rcases List.mem_append.1 h with h | h
    · cases hr : rows.find? (fun r => r.name == some n) with
      | none => rw [hr] at h; cases h
      | some r =>
        rw [hr] at h
        simp only [Option.bind_some] at h
        cases he : extract r.geo with
        | none => rw [he] at h; cases h
        | some e =>
          rw [he] at h
          simp only [Option.elim_some] at h
          rcases List.mem_append.1 h with h | h
          · obtain ⟨q, hq, e, hm⟩ := ((extract_rings he m).1).1 h
            exact ⟨n, r, q, List.mem_cons_self, find_first hr, hq, hm, Or.inl e.symm⟩
          · obtain ⟨q, hq, e, hm⟩ := ((extract_rings he m).2).1 h
            exact ⟨n, r, q, List.mem_cons_self, find_first hr, hq, hm, Or.inr e⟩
    · obtain ⟨n, r, q, h1, h2⟩ := mem_readRings (l := l) h
      exact ⟨n, r, q, List.mem_cons_of_mem _ h1, h2⟩

/-- **C80 (area, with conversion to UTM).** All rings are in the coordinates of the *same* zone: the one the user asked for, else the one of the ring that
is converted first. In these coordinates, the points inside are those of the exteriors without those of the holes. -/
theorem C80_utm (contains : List ℂ → ℂ → Bool) (c : Conv Z) (hc : ConvOk c) (zone : Option Z) (rows : List Row) (names : Option (List String)) (g : Geom)
    (h : shp2geom contains (some c) zone rows names = some (some g)) :
    ∃ z a, readPolygons (some c) zone rows names = some a ∧ a.zone = some z ∧
      (∀ u, zone = some u → z = u) ∧
      (zone = none → ∃ q m, Read rows names q ∧ (m = q.ext ∨ m ∈ q.holes) ∧ m ≠ [] ∧ z = (c none (m.map fun x => x.im) (m.map fun x => x.re)).2) ∧
      ∀ p, inside g p = true ↔ AreaOf contains (toZone c z) (Read rows names) p := by
  obtain ⟨a, ha⟩ := read_some h
  have ok : OkConv (some c) := by intro c' e; cases e; exact hc
  have inv := read_inv ok ha
  have hz : ∃ z, a.zone = some z ∧ (∀ u, zone = some u → z = u) ∧
      (zone = none → ∃ q m, Read rows names q ∧ (m = q.ext ∨ m ∈ q.holes) ∧ m ≠ [] ∧ z = (c none (m.map fun x => x.im) (m.map fun x => x.re)).2) := by
    rw [inv.zone_eq]
    cases zone with
    | some u => exact ⟨u, by simp [zoneAfter], by simp, by simp⟩
    | none =>
      cases hr : readRings rows (namesOf rows names) with
      | nil =>
        exfalso
        have hzn : a.zone = none := by rw [inv.zone_eq, hr]; rfl
        have hcomp : ∀ f, Compat (some c) a.zone f := by intro f z e; rw [hzn] at e; cases e
        -- without rings there is no geometry
        have hno : ∀ t ∈ a.ext.map (·.2), rings t = [] := by
          intro t ht
          obtain ⟨⟨n, t'⟩, hp, rfl⟩ := List.mem_map.1 ht
          obtain ⟨hn, e, ⟨r, h1, h2⟩, rfl⟩ := (inv.ext id (hcomp id) n t').1 hp
          simp only [rings_map (f := id) (fun l hl => hl), List.map_id]
          have : ∀ l : List (Option String), some n ∈ l → readRings rows l = [] → rings e.1 = [] := by
            intro l
            induction l with
            | nil => intro h; cases h
            | cons x l ih =>
              intro hx hl
              cases x with
              | none => exact ih (by simpa using hx) hl
              | some x =>
                simp only [readRings, List.append_eq_nil_iff] at hl
                rcases List.mem_cons.1 hx with e1 | e1
                · cases e1
                  have := hl.1
                  rw [first_find h1] at this
                  simp only [Option.bind_some, h2, Option.elim_some, List.append_eq_nil_iff] at this
                  exact this.1
                · exact ih e1 hl.2
          exact this _ hn hr
        have hnil : ringsAll (a.ext.map (·.2)) = [] := by
          rw [List.eq_nil_iff_forall_not_mem]
          intro l hl
          obtain ⟨t, ht, hl⟩ := mem_ringsAll.1 hl
          rw [hno t ht] at hl; cases hl
        have hcr := (create_spec (contains := contains) 0 (.node (a.ext.map (·.2)))).1 (by simpa [rings] using hnil)
        simp only [shp2geom, ha, Option.bind_some, hcr] at h
        cases hi : createGeom contains (.node (a.int.map (·.2))) with
        | none => rw [hi] at h; simp at h
        | some k => rw [hi] at h; simp at h
      | cons m ms =>
        refine ⟨_, by simp [zoneAfter]; rfl, by simp, fun _ => ?_⟩
        obtain ⟨n, r, q, h1, h2, h3, h4, h5⟩ := mem_readRings (rows := rows) (l := namesOf rows names) (m := m) (by rw [hr]; exact List.mem_cons_self)
        exact ⟨q, m, ⟨n, r, mem_namesOf.1 h1, h2, h3⟩, h5, h4, rfl⟩
  obtain ⟨z, z1, z2, z3⟩ := hz
  refine ⟨z, a, ha, z1, z2, z3, fun p => ?_⟩
  have hf : Compat (some c) a.zone (toZone c z) := by intro z' e; rw [z1] at e; cases e; rfl
  have hne : ∀ l, l ≠ [] → toZone c z l ≠ [] := by
    intro l hl e
    have := hc.length (some z) (l.map fun x => x.im) (l.map fun x => x.re)
    simp only [toZone] at e
    rw [e] at this
    simp only [List.length_nil, List.length_map] at this
    exact hl (List.eq_nil_of_length_eq_zero this.symm)
  rw [geom_inside (contains := contains) ok ha hf hne h p, AreaOf]
  push Not
  exact Iff.rfl

/-- **C80 (no point is invented).** A point inside is in one of the polygons of the file, and in none of its holes. -/
theorem C80_sound (contains : List ℂ → ℂ → Bool) (f : List ℂ → List ℂ) (Q : Part → Prop) (p : ℂ) (h : AreaOf contains f Q p) : ∃ q, Q q ∧ InPart contains f q p := by
  obtain ⟨⟨q, h1, h2, h3⟩, h4⟩ := h
  exact ⟨q, h1, h2, h3, h4 q h1⟩

/-- **C80 (points of polygons).** A point of a polygon is inside, if it is in no hole of *another* polygon either ... -/
theorem C80_complete_partial (contains : List ℂ → ℂ → Bool) (f : List ℂ → List ℂ) (Q : Part → Prop) (p : ℂ) (q : Part) (hq : Q q) (h : InPart contains f q p)
    (hn : ∀ q', Q q' → q' ≠ q → ∀ l ∈ q'.holes, l ≠ [] → ¬ contains (f l) p = true) : AreaOf contains f Q p := by
  refine ⟨⟨q, hq, h.1, h.2.1⟩, fun q' hq' => ?_⟩
  by_cases e : q' = q
  · subst e; exact h.2.2
  · exact hn q' hq' e

/-- **C80 (finding).** ... for otherwise it is not: an area that lies in the hole of another area (a ring with an island, two features side by side) is
lost. -/
theorem C80_island (contains : List ℂ → ℂ → Bool) (zone : Option Z) (rows : List Row) (names : Option (List String)) (g : Geom)
    (h : shp2geom contains none zone rows names = some (some g)) (p : ℂ) (q : Part) (hq : Read rows names q) (l : List ℂ) (hl : l ∈ q.holes) (hn : l ≠ []) (hp : contains l p = true) :
    inside g p = false := by
  rw [← Bool.not_eq_true, C80_plain contains zone rows names g h p]
  exact fun hc => hc.2 q hq l hl hn hp

/-- the first row with the name has a polygon, or several -/
def Readable (rows : List Row) (n : String) : Prop := ∃ r, FirstRow rows n r ∧ r.geo ≠ .other

theorem readable_iff {rows : List Row} {n : String} : Readable rows n ↔ ∃ e, coords rows n e := by
  constructor
  · rintro ⟨r, h1, h2⟩
    cases hg : r.geo with
    | other => exact absurd hg h2
    | polygon q => exact ⟨_, r, h1, by rw [hg]; rfl⟩
    | multi ps => exact ⟨_, r, h1, by rw [hg]; rfl⟩
  · rintro ⟨e, r, h1, h2⟩
    exact ⟨r, h1, fun h => by rw [h] at h2; cases h2⟩

theorem fold_ok {conv : Option (Conv Z)} {rows : List Row} : ∀ (l : List (Option String)) (a : Acc Z), (∀ n, some n ∈ l → Readable rows n) → ∃ b, l.foldlM (readName conv rows) a = some b
  | [], a, _ => ⟨a, rfl⟩
  | x :: l, a, h => by
    rw [List.foldlM_cons]
    have hx : ∃ a', readName conv rows a x = some a' := by
      cases x with
      | none => exact ⟨a, rfl⟩
      | some n =>
        obtain ⟨e, r, h1, h2⟩ := readable_iff.1 (h n List.mem_cons_self)
        exact ⟨_, by simp [readName, first_find h1, h2]; rfl⟩
    obtain ⟨a', ha'⟩ := hx
    rw [ha']
    exact fold_ok l a' fun n hn => h n (List.mem_cons_of_mem _ hn)

/-- **C80 (names).** Reading works exactly if there are polygons for all wanted names; rows without name are not read. -/
theorem C80_names (conv : Option (Conv Z)) (hc : ∀ c, conv = some c → ConvOk c) (zone : Option Z) (rows : List Row) (names : Option (List String)) :
    (∃ a, readPolygons conv zone rows names = some a) ↔ ∀ n, Wanted rows names n → Readable rows n := by
  constructor
  · rintro ⟨a, ha⟩ n hn
    exact readable_iff.2 ((read_inv hc ha).found n (mem_namesOf.2 hn))
  · intro h
    exact fold_ok _ _ fun n hn => h n (mem_namesOf.1 hn)

/-- **C80 (unknown names).** ... so that a name that is not in the file is an error. -/
theorem C80_unknown (contains : List ℂ → ℂ → Bool) (conv : Option (Conv Z)) (zone : Option Z) (rows : List Row) (l : List String) (n : String) (hn : n ∈ l) (h : ∀ r ∈ rows, r.name ≠ some n)
    (hc : ∀ c, conv = some c → ConvOk c) : shp2geom contains conv zone rows (some l) = none := by
  cases hs : shp2geom contains conv zone rows (some l) with
  | none => rfl
  | some x =>
    obtain ⟨r, ⟨l1, l2, h1, h2, _⟩, _⟩ := (C80_names conv hc zone rows (some l)).1 (read_some hs) n hn
    exact absurd h2 (h r (by rw [h1]; simp))

/-- **C80 (result).** If reading works, and there is an exterior with points, there is an area. -/
theorem C80_some (contains : List ℂ → ℂ → Bool) (zone : Option Z) (rows : List Row) (names : Option (List String)) (q : Part) (hq : Read rows names q) (he : q.ext ≠ [])
    (h : ∀ n, Wanted rows names n → Readable rows n) : ∃ g, shp2geom contains none zone rows names = some (some g) := by
  obtain ⟨a, ha⟩ := (C80_names none (by intro c hc; cases hc) zone rows names).2 h
  have hr := ((acc_rings (conv := none) (by intro c hc; cases hc) ha (f := id) rfl (fun l hl => hl) q.ext).1).2 ⟨q, hq, he, rfl⟩
  obtain ⟨g, hg, _⟩ := (create_spec (contains := contains) 0 (.node (a.ext.map (·.2)))).2 (by
    intro e; simp only [rings] at e; rw [e] at hr; cases hr)
  simp only [shp2geom, ha, Option.bind_some, hg]
  cases createGeom contains (.node (a.int.map (·.2))) <;> simp

/-- **C80 (the first row).** Later rows with a name that was there before do not count. -/
theorem C80_later_rows (rows : List Row) (names : Option (List String)) (r : Row) (n : String) (hr : r.name = some n) (h : ∃ q ∈ rows, q.name = some n) (p : Part) :
    Read (rows ++ [r]) names p ↔ Read rows names p := by
  have key : ∀ m s, FirstRow (rows ++ [r]) m s ↔ FirstRow rows m s ∨ ((∀ q ∈ rows, q.name ≠ some m) ∧ s = r ∧ m = n) := by
    intro m s
    constructor
    · intro hf
      have hf := first_find hf
      rw [List.find?_append] at hf
      cases hx : rows.find? (fun r => r.name == some m) with
      | some y => rw [hx] at hf; simp only [Option.some_or, Option.some.injEq] at hf; subst hf; exact Or.inl (find_first hx)
      | none =>
        rw [hx] at hf
        right
        rw [List.find?_eq_none] at hx
        simp only [Option.none_or, List.find?_cons, hr] at hf
        by_cases e : n = m
        · subst e; simp at hf; exact ⟨fun q hq e => hx q hq (by simp [e]), hf.symm, rfl⟩
        · have : (some n == some m) = false := by simpa using e
          rw [this] at hf; simp at hf
    · rintro (⟨l1, l2, h1, h2, h3⟩ | ⟨h1, rfl, rfl⟩)
      · exact ⟨l1, l2 ++ [r], by rw [h1]; simp, h2, h3⟩
      · exact ⟨rows, [], rfl, hr, h1⟩
  constructor
  · rintro ⟨m, s, h1, h2, h3⟩
    rcases (key m s).1 h2 with h4 | ⟨h4, _, rfl⟩
    · refine ⟨m, s, ?_, h4, h3⟩
      cases names with
      | some l => exact h1
      | none => obtain ⟨l1, l2, e1, e2, _⟩ := h4; exact ⟨s, by rw [e1]; simp, e2⟩
    · obtain ⟨q, hq, e⟩ := h
      exact absurd e (h4 q hq)
  · rintro ⟨m, s, h1, h2, h3⟩
    refine ⟨m, s, ?_, (key m s).2 (Or.inl h2), h3⟩
    cases names with
    | some l => exact h1
    | none => obtain ⟨q, hq, e⟩ := h1; exact ⟨q, by simp [hq], e⟩

/-! ### Example -/

/-- a stand-in for the inside of a polygon: between the first two points -/
noncomputable def between : List ℂ → ℂ → Bool
  | a :: b :: _, p => decide (a.re ≤ p.re ∧ p.re ≤ b.re)
  | _, _ => false

def lake : Part := ⟨[0, 10], [[2, 8]]⟩
def island : Part := ⟨[4, 6], []⟩

/-- an area with a hole and an island in it, a row without name, a second row with the same name -/
def file : List Row := [⟨some "a", .multi [lake, island]⟩, ⟨none, .polygon ⟨[20, 30], []⟩⟩, ⟨some "a", .polygon ⟨[40, 50], []⟩⟩]

theorem read_lake : Read file none lake := ⟨"a", _, ⟨_, List.mem_cons_self, rfl⟩, ⟨[], _, rfl, rfl, by simp⟩, by simp [parts]⟩
theorem read_island : Read file none island := ⟨"a", _, ⟨_, List.mem_cons_self, rfl⟩, ⟨[], _, rfl, rfl, by simp⟩, by simp [parts]⟩

theorem file_ok : ∃ g, shp2geom (Z := Unit) between none none file none = some (some g) := by
  refine C80_some between none file none lake read_lake (by simp [lake]) ?_
  rintro n ⟨q, hq, hn⟩
  have hn' : n = "a" := by
    simp only [file, List.mem_cons, List.not_mem_nil, or_false] at hq
    rcases hq with rfl | rfl | rfl <;> simp at hn <;> exact hn.symm
  subst hn'
  exact ⟨_, ⟨[], _, rfl, rfl, by simp⟩, by simp⟩

/-- the point 5 is on the island, and not inside of the geometry; the point 1 is inside of it -/
example : ∃ g, shp2geom (Z := Unit) between none none file none = some (some g) ∧ InPart between id island 5 ∧ inside g 5 = false ∧ inside g 1 = true := by
  obtain ⟨g, hg⟩ := file_ok
  refine ⟨g, hg, ⟨by simp [island], by simp [island, between]; norm_num, by simp [island]⟩, ?_, ?_⟩
  · exact C80_island between none file none g hg 5 lake read_lake [2, 8] (by simp [lake]) (by simp) (by simp [between]; norm_num)
  · rw [C80_plain between none file none g hg 1]
    refine C80_complete_partial between id _ 1 lake read_lake ⟨by simp [lake], by simp [lake, between], ?_⟩ ?_
    · simp [lake, between]
    · rintro q ⟨n, r, _, ⟨l1, l2, h1, h2, h3⟩, hq⟩ hne l hl
      exfalso
      have hr : r ∈ file := by rw [h1]; simp
      simp only [file, List.mem_cons, List.not_mem_nil, or_false] at hr
      rcases hr with rfl | rfl | rfl
      · simp only [parts, List.mem_cons, List.not_mem_nil, or_false] at hq
        rcases hq with rfl | rfl
        · exact hne rfl
        · simp [island] at hl
      · cases h2
      · simp only [parts, List.mem_singleton] at hq; subst hq; simp at hl

/-- a conversion as `ConvOk` wants it: the zone is the whole part of the first longitude by 6, and moves the easting -/
noncomputable def demoConv : Conv ℤ := fun z lat lon =>
  let z' := z.getD (match lon with | [] => 0 | x :: _ => ⌊x / 6⌋)
  ((lat.map fun (y : ℝ) => (Complex.mk (-(z' : ℝ)) y)), z')

theorem demo_ok : ConvOk demoConv := ⟨fun _ _ _ => rfl, fun _ _ => rfl, fun _ _ _ => by simp [demoConv]⟩

example : ∃ g, shp2geom between (some demoConv) none [⟨some "b", .polygon ⟨[0, 1, 2], []⟩⟩] none = some (some g) := by
  simp [shp2geom, readPolygons, namesOf, readName, extract, extractPart, toNumpy, toNumpyAll, setKey, createGeom, createAll, demoConv]

end Foxes.Props.Shapes
