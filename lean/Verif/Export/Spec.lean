import Verif.Export.Model
import Verif.Stl.Props

/-
What an exported solid is, independent of the exporter.
-/

namespace Hob3l.Export

variable {D : Type}

/-- a polygon of a layer: number of the layer, points, triangles -/
structure Slab (D : Type) where
  zi : Nat
  point : List (D × D)
  tri : List Tri

/-- concatenation, if both are defined -/
def both {α : Type} (a b : Option (List α)) : Option (List α) := a.bind fun x => b.map fun y => x ++ y

mutual
/-- the polygons that are exported: of differences the base, of intersections and exclusive-ors the first part only.  `none` if
there are objects that are not polygons, or a layer is not at its place. -/
def Csg.slabs (zi : Nat) : Csg D → Option (List (Slab D))
  | .null => some []
  | .vline2 => none
  | .sweep => none
  | .poly point tri => some [⟨zi, point, tri⟩]
  | .stack idx0 ls => ls.slabs idx0
  | .add xs => xs.slabs zi
  | .xor xss => xss.slabs zi
  | .sub xs _ => xs.slabs zi
  | .cut xss => xss.slabs zi
def Csgs.slabs (zi : Nat) : Csgs D → Option (List (Slab D))
  | .nil => some []
  | .cons x xs => both (x.slabs zi) (xs.slabs zi)
def CsgAdds.slabs (zi : Nat) : CsgAdds D → Option (List (Slab D))
  | .nil => some []
  | .cons x _ => x.slabs zi
def Layers.slabs (zi : Nat) : Layers D → Option (List (Slab D))
  | .nil => some []
  | .cons _ .nil ls => ls.slabs (zi + 1)
  | .cons lzi (.cons x xs) ls =>
    if zi = lzi then both (both (x.slabs zi) (xs.slabs zi)) (ls.slabs (zi + 1)) else none
end

/-- a corner of the solid: number of the point, top or bottom -/
abbrev Corner := Nat × Bool

/-- which way a triangle of the solid faces -/
inductive Face where
  | up
  | down
  /-- the side over the edge from point `j` to point `k` -/
  | side (j k : Nat)
deriving DecidableEq, Repr

/-- a triangle of a solid -/
abbrev Facet := Face × Corner × Corner × Corner

/-- the directed edges of a triangle with their marks -/
def Tri.edges (t : Tri) : List (Nat × Nat × Bool) := [(t.p0, t.p1, t.o01), (t.p1, t.p2, t.o12), (t.p2, t.p0, t.o20)]

/-- the edges marked as outline -/
def outline (tri : List Tri) : List (Nat × Nat) := ((tri.flatMap Tri.edges).filter fun e => e.2.2).map fun e => (e.1, e.2.1)

/-- the edges not marked as outline -/
def inner (tri : List Tri) : List (Nat × Nat) := ((tri.flatMap Tri.edges).filter fun e => !e.2.2).map fun e => (e.1, e.2.1)

/-- the two triangles of the side over an edge -/
def wall (e : Nat × Nat) : List Facet :=
  [(.side e.1 e.2, (e.2, false), (e.1, true), (e.2, true)), (.side e.1 e.2, (e.2, false), (e.1, false), (e.1, true))]

/-- the bottom -/
def bottom (tri : List Tri) : List Facet := tri.map fun t => (.down, (t.p0, false), (t.p1, false), (t.p2, false))

/-- the top -/
def top (tri : List Tri) : List Facet := tri.map fun t => (.up, (t.p1, true), (t.p0, true), (t.p2, true))

/-- the triangles of the solid over a polygon; of a solid without height only the bottom -/
def solid (flat : Bool) (tri : List Tri) : List Facet :=
  if flat then bottom tri else top tri ++ bottom tri ++ (outline tri).flatMap wall

/-- a triangle in space: normal and corners -/
abbrev T3 (D : Type) := P3 D × P3 D × P3 D × P3 D

/-- the place of a corner -/
def place (env : Env D) (z : List D) (s : Slab D) (c : Corner) : Option (P3 D) :=
  s.point[c.1]?.bind fun p => z[s.zi]?.map fun z0 => (p.1, p.2, if c.2 then env.top z0 else z0)

/-- the normal of a facet: vertical, or perpendicular to the side -/
def normalOf (env : Env D) (z : List D) (s : Slab D) : Face → Option (P3 D)
  | .up => some (env.zero, env.zero, env.one)
  | .down => some (env.zero, env.zero, env.neg)
  | .side j k => (place env z s (k, false)).bind fun a => (place env z s (j, true)).bind fun b =>
      (place env z s (k, true)).bind fun c => env.normal a b c

/-- the triangle in space for a facet -/
def inSpace (env : Env D) (z : List D) (s : Slab D) (f : Facet) : Option (T3 D) :=
  (normalOf env z s f.1).bind fun n => (place env z s f.2.1).bind fun a => (place env z s f.2.2.1).bind fun b =>
    (place env z s f.2.2.2).map fun c => (n, a, b, c)

/-- the triangles in space for all polygons -/
def allTriangles (env : Env D) (z : List D) : List (Slab D) → Option (List (T3 D))
  | [] => some []
  | s :: ss => z[s.zi]?.bind fun z0 =>
      both ((solid (env.eq z0 (env.top z0)) s.tri).mapM (inSpace env z s)) (allTriangles env z ss)

/-- the words of a point in a binary file -/
def wordsOf (env : Env D) (p : P3 D) : Stl.Words := ((env.word p.1).toNat, (env.word p.2.1).toNat, (env.word p.2.2).toNat)

/-- a triangle in a binary file -/
def recordOf (env : Env D) (t : T3 D) : Stl.Words × Stl.Words × Stl.Words × Stl.Words :=
  (wordsOf env t.1, wordsOf env t.2.1, wordsOf env t.2.2.1, wordsOf env t.2.2.2)

/-- the directed edges of triangles -/
def edgesOf {V : Type} (ts : List (V × V × V)) : List (V × V) := ts.flatMap fun t => [(t.1, t.2.1), (t.2.1, t.2.2), (t.2.2, t.1)]

/-- every directed edge occurs as often as its reverse -/
def Balanced {V : Type} (es : List (V × V)) : Prop := (es.map Prod.swap).Perm es

end Hob3l.Export
