import Verif.Isect.Model
import Verif.Matq.Spec

/-
What the documentation of `cq_has_intersect` (include/hob3lop/op-sweep.h:179-195) says, in terms of points of the plane.
-/

namespace Hob3l.Isect

open Hob3l.Matq

/-- `X` is a point of the line segment -/
def Line.On (l : Line) (X : Pt) : Prop := OnSeg l.a.pt l.b.pt X

/-- a point of the segment that is not an end of it -/
def Line.Inner (l : Line) (X : Pt) : Prop := l.On X ∧ X ≠ l.a.pt ∧ X ≠ l.b.pt

def Line.Ends (l : Line) (X : Pt) : Prop := X = l.a.pt ∨ X = l.b.pt

/-- the same segment, in any direction -/
def Line.Same (l m : Line) : Prop := (l.a = m.a ∧ l.b = m.b) ∨ (l.a = m.b ∧ l.b = m.a)

/-- the documentation: no intersections, including junctions; equal end points are not counted, full overlap is not
counted -/
def Free (gon : List Line) : Prop :=
  ∀ l ∈ gon, ∀ m ∈ gon, l.Same m ∨ ∀ X, l.On X → m.On X → l.Ends X ∧ m.Ends X

/-- exactly one common point, which is an inner point of both -/
def Crosses (l m : Line) (X : Pt) : Prop := l.Inner X ∧ m.Inner X ∧ ∀ Y, l.On Y → m.On Y → Y = X

/-- an end of one is an inner point of the other, which lies in the same direction -/
def PartOverlap (l m : Line) : Prop :=
  Parallel l.a.pt l.b.pt m.a.pt m.b.pt ∧
    (m.Inner l.a.pt ∨ m.Inner l.b.pt ∨ l.Inner m.a.pt ∨ l.Inner m.b.pt)

/-- an end of one is an inner point of the other -/
def Touch (l m : Line) : Prop := m.Inner l.a.pt ∨ m.Inner l.b.pt ∨ l.Inner m.a.pt ∨ l.Inner m.b.pt

/-- lines that the function can handle -/
def Line.Ok (l : Line) : Prop := l.a.InRange ∧ l.b.InRange ∧ l.a ≠ l.b

end Hob3l.Isect
