import Verif.Xml.Model

/-!
Which elements of an SVG file are looked at: namespaces (src/hob3l/csg3.c `csg3_from_import`, src/hob3l/xml-parse.c `cp_xml_set_ns`,
`cp_xml_find`, src/hob3l/svg-parse.c `csg2_from_elem`, `s_attr_str`).

The XML tree is that of `Verif.Xml.Model`.  What is done for an element (`Verif.Svg.ElemModel`) is abstract: the result is the list
of the elements that are looked at, each with the elements around it, in order; `enter` says for which names the elements inside are
looked at, too.
-/

namespace Hob3l.Ns

open Hob3l.Xml (Nd)

abbrev Str := List Nat

/-- `char const *ns` of a node: NULL, some string, or the pointer `CP_SVG_NS` -/
inductive Ptr where
  | null
  | str (s : Str)
  | svg
  deriving DecidableEq

/-- `cp_svg_ns_` svg-parse.c: `http://www.w3.org/2000/svg` -/
def svgUri : Str :=
  [0x68, 0x74, 0x74, 0x70, 0x3a, 0x2f, 0x2f, 0x77, 0x77, 0x77, 0x2e, 0x77, 0x33, 0x2e, 0x6f, 0x72, 0x67, 0x2f, 0x32, 0x30, 0x30, 0x30,
    0x2f, 0x73, 0x76, 0x67]

/-- `"svg"` -/
def svgName : Str := [0x73, 0x76, 0x67]

/-- `cp_xml_t` -/
inductive T where
  | attr (name : Str) (ns : Ptr) (val : Option Str)
  | elem (name : Str) (ns : Ptr) (child : List T)
  | cdata

/-- the pointer as the parser sets it -/
def ptr : Option Str → Ptr
  | none => .null
  | some s => .str s

mutual
/-- the tree of the parser -/
def load : Nd → T
  | .attr _ name ns val => .attr name (ptr ns) val
  | .elem _ name ns child => .elem name (ptr ns) (loadL child)
  | .cdata _ => .cdata
def loadL : List Nd → List T
  | [] => []
  | x :: l => load x :: loadL l
end

/-- the body of the loop of `cp_xml_set_ns` xml-parse.c:793-804 for `old_ns == NULL`, `new_ns == CP_SVG_NS` -/
def setPtr (isElem : Bool) (ns : Ptr) : Ptr :=
  match ns with
  | .null => if isElem then .svg else .null
  | .svg => .svg
  | .str s => if s = svgUri then .svg else .str s

mutual
/-- `cp_xml_set_ns` xml-parse.c:787-807 -/
def setNs : T → T
  | .attr name ns val => .attr name (setPtr false ns) val
  | .elem name ns child => .elem name (setPtr true ns) (setNsL child)
  | .cdata => .cdata
def setNsL : List T → List T
  | [] => []
  | x :: l => setNs x :: setNsL l
end

/-- `s_attr_str` svg-parse.c:1058-1065 with `cp_xml_find` xml-parse.c:753-774 -/
def sAttr (name : Str) : List T → Option Str
  | [] => none
  | .attr n ns val :: l => if ns = .null ∧ n = name then val else sAttr name l
  | _ :: l => sAttr name l

mutual
/-- body of the loop of `csg2_from_elem` svg-parse.c:1834-1845.  An attribute (if there are any after other nodes) would be treated as
an element. -/
def visit (enter : Str → Bool) : T → List (List (Str × List T))
  | .attr name ns _ => if ns ≠ .svg then [] else [[(name, [])]]
  | .elem name ns child =>
    if ns ≠ .svg then []
    else [(name, child)] :: (if enter name then (fromElem enter child).map ((name, child) :: ·) else [])
  | .cdata => []
/-- `csg2_from_elem` svg-parse.c:1827-1847: leading attributes are skipped (`cp_xml_skip_attr` xml-parse.c:813-830) -/
def fromElem (enter : Str → Bool) : List T → List (List (Str × List T))
  | [] => []
  | .attr _ _ _ :: l => fromElem enter l
  | .elem name ns child :: l => visit enter (.elem name ns child) ++ loop enter l
  | .cdata :: l => loop enter l
/-- the loop svg-parse.c:1834-1845 -/
def loop (enter : Str → Bool) : List T → List (List (Str × List T))
  | [] => []
  | x :: l => visit enter x ++ loop enter l
end

/-- the SVG part of `csg3_from_import` csg3.c:921-942 for the first element of the file; `none`: an error -/
def importTop (enter : Str → Bool) (top : Nd) : Option (List (List (Str × List T))) :=
  match setNs (load top) with
  | .elem name ns child =>
    if name ≠ svgName then none
    else if ns ≠ .svg then none
    else some (fromElem enter [.elem name ns child])
  | _ => none

end Hob3l.Ns
