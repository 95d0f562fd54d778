import Verif.Model.Geom2d
/-
Model of `foxes/utils/geopandas_utils.py`: areas from shapefiles. What geopandas reads from the file (names and geometries in longitude and
latitude), the conversion to UTM coordinates and matplotlib's decision which points are inside of a polygon are parameters.

Simplifications: points are two dimensional, with longitude (easting) as real part; a zone is any value; nothing is said about reprojection to WGS84.
-/
namespace Foxes.Shapes

open Foxes.Geom2d

noncomputable section

/-- a polygon of a geometry: exterior and interior rings -/
structure Part where
  ext : List ℂ
  holes : List (List ℂ)

/-- the geometry of a row -/
inductive Geo where
  | polygon (p : Part)
  | multi (ps : List Part)
  | other

/-- a row of the file: the name (`none`: nan) and the geometry -/
structure Row where
  name : Option String
  geo : Geo

/-- nested lists of coordinates -/
inductive Tree where
  | pts (l : List ℂ)
  | node (l : List Tree)

/-- `_extract_poly_coords` (geopandas_utils.py:111-129) for a polygon -/
def extractPart (p : Part) : Tree × Tree := (.pts p.ext, .node (p.holes.map .pts))

/-- `_extract_poly_coords` (geopandas_utils.py:111-129); `none`: for other types AttributeError, while the message is made -/
def extract : Geo → Option (Tree × Tree)
  | .polygon p => some (extractPart p)
  | .multi ps => some (.node (ps.map fun p => (extractPart p).1), .node (ps.map fun p => (extractPart p).2))
  | .other => none

/-- `utm.from_latlon(lat, lon, zone)` (the library): the points, and the zone used -/
abbrev Conv (Z : Type) := Option Z → List ℝ → List ℝ → List ℂ × Z

variable {Z : Type}

mutual
/-- `_to_numpy` (geopandas_utils.py:211-217), with `_to_utm` (200-209): the zone is remembered from call to call; `conv = none`: no conversion -/
def toNumpy (conv : Option (Conv Z)) : Tree → Option Z → Tree × Option Z
  | .pts l, z =>
    if l = [] then (.node [], z)
    else match conv with
      | none => (.pts l, z)
      | some c => let r := c z (l.map Complex.im) (l.map Complex.re); (.pts r.1, some r.2)
  | .node ts, z => let r := toNumpyAll conv ts z; (.node r.1, r.2)
/-- the list comprehension in `_to_numpy` (line 217) -/
def toNumpyAll (conv : Option (Conv Z)) : List Tree → Option Z → List Tree × Option Z
  | [], z => ([], z)
  | t :: ts, z =>
    let r := toNumpy conv t z
    let q := toNumpyAll conv ts r.2
    (r.1 :: q.1, q.2)
end

/-- what `read_shp_polygons` collects: exterior and interior coordinates by name, and the zone -/
structure Acc (Z : Type) where
  ext : List (String × Tree)
  int : List (String × Tree)
  zone : Option Z

/-- `d[name] = t` -/
def setKey (d : List (String × Tree)) (name : String) (t : Tree) : List (String × Tree) :=
  if d.any (fun p => p.1 == name) then d.map (fun p => if p.1 == name then (name, t) else p) else d ++ [(name, t)]

/-- one pass of the loop over names (geopandas_utils.py:190-220): the *first* row with that name; `none`: KeyError -/
def readName (conv : Option (Conv Z)) (rows : List Row) (a : Acc Z) (name : Option String) : Option (Acc Z) :=
  match name with
  | none => some a
  | some n =>
    (rows.find? fun r => r.name == some n).bind fun r =>
      (extract r.geo).map fun e =>
        let x := toNumpy conv e.1 a.zone
        let y := toNumpy conv e.2 x.2
        ⟨setKey a.ext n x.1, setKey a.int n y.1, y.2⟩

/-- the names to be read (geopandas_utils.py:189): `none` for all names of the file -/
def namesOf (rows : List Row) : Option (List String) → List (Option String)
  | none => rows.map fun r => r.name
  | some l => l.map some

/-- `read_shp_polygons` (geopandas_utils.py:132-225). `zone`: the zone given by the user, if any -/
def readPolygons (conv : Option (Conv Z)) (zone : Option Z) (rows : List Row) (names : Option (List String)) : Option (Acc Z) :=
  (namesOf rows names).foldlM (readName conv rows) ⟨[], [], zone⟩

mutual
/-- `_create_geom` (geopandas_utils.py:255-267): `None` for nothing, polygons, unions of what is there -/
def createGeom (contains : List ℂ → ℂ → Bool) : Tree → Option Geom
  | .pts l => if l = [] then none else some (.poly l (contains l))
  | .node ts => let gs := createAll contains ts; if gs = [] then none else some (.union gs)
/-- the geometries that are there (lines 259-260, 265-266) -/
def createAll (contains : List ℂ → ℂ → Bool) : List Tree → List Geom
  | [] => []
  | t :: ts => (createGeom contains t).toList ++ createAll contains ts
end

/-- `shp2geom2d` (geopandas_utils.py:227-277) without the zone; `none`: raises, `some none`: returns `None` -/
def shp2geom (contains : List ℂ → ℂ → Bool) (conv : Option (Conv Z)) (zone : Option Z) (rows : List Row) (names : Option (List String)) : Option (Option Geom) :=
  (readPolygons conv zone rows names).bind fun a =>
    match createGeom contains (.node (a.ext.map (·.2))), createGeom contains (.node (a.int.map (·.2))) with
    | g, none => some g
    | some g, some h => some (some (sub g h))
    | none, some _ => none

end

end Foxes.Shapes
