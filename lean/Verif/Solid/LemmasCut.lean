import Verif.Solid.LemmasTower
import Verif.Slice.LemmasMesh

/-
Cutting a tower at a height.
-/

namespace Hob3l.Solid

open Hob3l.Slice (sides walk QSort addFaces addFace sliceMesh cuts cutPt Crosses fini finiLoop toLines Vec3)
open Hob3l.Matq

/-- the line through two cut points -/
def pairOf : List Vec2 → List (Vec2 × Vec2)
  | [p, q] => [(p, q)]
  | _ => []

/-- same lines regardless of direction -/
def mk (l : Vec2 × Vec2) : Sym2 Vec2 := s(l.1, l.2)

theorem pairOf_perm {t c : List Vec2} (hp : t.Perm c) : (pairOf t).map mk = (pairOf c).map mk := by
  have hl := hp.length_eq
  match c, hl with
  | [], hl => have := List.length_eq_zero_iff.mp hl; subst this; rfl
  | [a], hl =>
    obtain ⟨x, rfl⟩ := List.length_eq_one_iff.mp hl
    rfl
  | [a, b], hl =>
    obtain ⟨x, y, rfl⟩ := List.length_eq_two.mp hl
    have hx : x ∈ [a, b] := hp.mem_iff.mp (by simp)
    simp only [List.mem_cons, List.not_mem_nil, or_false] at hx
    rcases hx with rfl | rfl
    · have := (List.perm_cons x).mp hp
      rw [List.perm_singleton] at this
      injection this with h
      subst h
      rfl
    · have := (List.perm_cons x).mp (hp.trans (List.Perm.swap x a []))
      rw [List.perm_singleton] at this
      injection this with h
      subst h
      simp [pairOf, mk, Sym2.eq_swap]
  | a :: b :: c :: d, hl =>
    match t, hl with
    | x :: y :: z :: w, _ => rfl

theorem toLines_flatMap (Ls : List (Vec2 × Vec2)) : toLines (Ls.flatMap fun l => [l.1, l.2]) = some Ls := by
  induction Ls with
  | nil => rfl
  | cons l Ls ih => simp [toLines, ih]

theorem even_length (Ls : List (Vec2 × Vec2)) : (Ls.flatMap fun l => [l.1, l.2]).length % 2 = 0 := by
  induction Ls with
  | nil => rfl
  | cons l Ls ih => rw [List.flatMap_cons, List.length_append]; simp only [List.length_cons, List.length_nil]; omega

/-- faces that are cut at most twice -/
theorem addFaces_pairs (qs : QSort) (hq : qs.Ok) (z : Int) (faces : List (List Vec3)) (out : List Vec2)
    (hf : ∀ f ∈ faces, ∀ v ∈ f, v.InRange) (h3 : ∀ f ∈ faces, 3 ≤ f.length)
    (h2 : ∀ f ∈ faces, (cuts z (sides f)).length ≤ 2) (he : out.length % 2 = 0) :
    ∃ Ls : List (Vec2 × Vec2), addFaces qs z faces out = some (out ++ Ls.flatMap fun l => [l.1, l.2]) ∧
      Ls.map mk = (faces.flatMap fun f => pairOf (cuts z (sides f))).map mk := by
  induction faces generalizing out with
  | nil => exact ⟨[], by simp [addFaces], rfl⟩
  | cons f fs ih =>
    obtain ⟨t, e1, e2, -⟩ := Slice.addFace_spec qs hq z out f (hf f (by simp)) (h3 f (by simp)) he
    have hpar := Slice.sides_parity z f
    have hle := h2 f (by simp)
    have hl := e2.length_eq
    -- what is appended is the points of one line or nothing
    have ht : t = (pairOf t).flatMap fun l => [l.1, l.2] := by
      have : t.length = 0 ∨ t.length = 2 := by omega
      rcases this with h | h
      · have := List.length_eq_zero_iff.mp h; subst this; rfl
      · obtain ⟨x, y, rfl⟩ := List.length_eq_two.mp h; rfl
    obtain ⟨Ls, r1, r2⟩ := ih (out ++ t) (fun g hg => hf g (by simp [hg])) (fun g hg => h3 g (by simp [hg]))
      (fun g hg => h2 g (by simp [hg])) (by rw [List.length_append]; omega)
    refine ⟨pairOf t ++ Ls, ?_, ?_⟩
    · simp only [addFaces, e1, Option.bind_eq_bind, Option.bind_some, r1]
      rw [List.flatMap_append, ← ht, List.append_assoc]
    · rw [List.map_append, List.flatMap_cons, List.map_append, r2, pairOf_perm e2]

theorem sliceMesh_pairs (qs : QSort) (hq : qs.Ok) (z : Int) (faces : List (List Vec3))
    (hf : ∀ f ∈ faces, ∀ v ∈ f, v.InRange) (h3 : ∀ f ∈ faces, 3 ≤ f.length)
    (h2 : ∀ f ∈ faces, (cuts z (sides f)).length ≤ 2) (wanted : List (Vec2 × Vec2))
    (hw : ((faces.flatMap fun f => pairOf (cuts z (sides f))).map mk).Perm (wanted.map mk)) :
    ∃ L, sliceMesh qs z faces = some L ∧ SameLines L wanted := by
  obtain ⟨Ls, e1, e2⟩ := addFaces_pairs qs hq z faces [] hf h3 h2 rfl
  obtain ⟨R, hR, hp⟩ := Slice.finiLoop_perm Ls.length Ls 0 (by omega)
  simp only [List.take_zero, List.drop_zero, List.nil_append] at hp
  refine ⟨R, ?_, ?_⟩
  · unfold sliceMesh fini
    simp only [e1, List.nil_append, toLines_flatMap, Option.bind_eq_bind, Option.bind_some, hR]
  · unfold SameLines
    refine (hp.map _).trans ?_
    have key : ∀ l : List (Vec2 × Vec2), (l.filter fun l => decide (l.1 ≠ l.2)).map mk =
        (l.map mk).filter fun s => decide (¬ s.IsDiag) := by
      intro l
      rw [List.filter_map]
      congr 1
      apply List.filter_congr
      intro x _
      simp [mk]
    show List.Perm ((Ls.filter fun l => decide (l.1 ≠ l.2)).map mk) ((wanted.filter fun l => decide (l.1 ≠ l.2)).map mk)
    rw [key, key, e2]
    exact hw.filter _

/-! ## cut points of the faces of a tower -/

theorem cuts_flat (z c : Int) (l : List Vec3) (h : ∀ v ∈ l, v.z = c) : cuts z (sides l) = [] := by
  unfold cuts
  rw [List.map_eq_nil_iff, List.filter_eq_nil_iff]
  intro s hs
  have m := mem_sides hs
  have a := h _ m.1
  have b := h _ m.2
  intro hc
  have hc := of_decide_eq_true hc
  unfold Crosses at hc
  omega

theorem cuts_swap (z : Int) (S : List (Vec3 × Vec3)) : cuts z (S.map Prod.swap) = cuts z S := by
  induction S with
  | nil => rfl
  | cons s S ih =>
    rw [List.map_cons, Slice.cuts_cons, Slice.cuts_cons, ih]
    congr 1
    have e : Crosses z s.swap ↔ Crosses z s := Slice.crosses_swap (a := s.1) (b := s.2)
    by_cases h : Crosses z s
    · rw [if_pos h, if_pos (e.mpr h)]
      have := Slice.cutPt_swap (z := z) (a := s.1) (b := s.2) h.ne
      exact congrArg (fun x => [x]) this
    · rw [if_neg h, if_neg (fun x => h (e.mp x))]

theorem cuts_perm {z : Int} {S T : List (Vec3 × Vec3)} (h : S.Perm T) : (cuts z S).Perm (cuts z T) :=
  (h.filter _).map _

theorem cuts_reverse (z : Int) (l : List Vec3) : (cuts z (sides l.reverse)).Perm (cuts z (sides l)) := by
  have := cuts_perm (z := z) (sides_reverse l)
  rwa [cuts_swap] at this

section
variable (z : Int) (W : P → Vec3)

/-- the cut point between two points of the tower -/
noncomputable def cp (p q : P) : Vec2 := cutPt z (W p, W q)

/-- heights of the layers; layer `L` is the apex if there is no top -/
structure Heights (Z : Nat → Int) (fn L : Nat) (hasTop : Bool) : Prop where
  layer : ∀ k j, k < L → j < fn → (W (k, j)).z = Z k
  apex : hasTop = false → (W (L, 0)).z = Z L

/-- what a face contributes if the plane is between layer `k` and `k + 1` -/
noncomputable def want (Z : Nat → Int) (fn L : Nat) (tri : Tri) : FaceId → List (Vec2 × Vec2)
  | .bot => []
  | .top => []
  | .side k j =>
    if Between z (Z k) (Z (k + 1)) then
      match tri with
      | .none => [(cp z W (k, j) (k + 1, j), cp z W (k, wrapAdd1 j fn) (k + 1, wrapAdd1 j fn))]
      | .left => [(cp z W (k, j) (k + 1, j), cp z W (k, wrapAdd1 j fn) (k + 1, j))]
      | .right => [(cp z W (k, j) (k + 1, wrapAdd1 j fn), cp z W (k, wrapAdd1 j fn) (k + 1, wrapAdd1 j fn))]
    else []
  | .side2 k j =>
    if Between z (Z k) (Z (k + 1)) then
      match tri with
      | .left => [(cp z W (k, wrapAdd1 j fn) (k + 1, j), cp z W (k, wrapAdd1 j fn) (k + 1, wrapAdd1 j fn))]
      | _ => [(cp z W (k, j) (k + 1, j), cp z W (k, j) (k + 1, wrapAdd1 j fn))]
    else []
  | .roof j =>
    if Between z (Z (L - 1)) (Z L) then [(cp z W (L - 1, j) (L, 0), cp z W (L - 1, wrapAdd1 j fn) (L, 0))] else []

theorem mk_swap (p q : Vec2) : mk (p, q) = mk (q, p) := Sym2.eq_swap

theorem crosses_up {Z : Nat → Int} {a b : P} {x y : Int} (ha : (W a).z = x) (hb : (W b).z = y) (h : Between z x y) :
    Crosses z (W a, W b) ∧ Crosses z (W b, W a) ∧ cutPt z (W b, W a) = cp z W a b ∧ cutPt z (W a, W b) = cp z W a b := by
  have c1 : Crosses z (W a, W b) := by unfold Crosses; rw [ha, hb]; exact h
  exact ⟨c1, Slice.crosses_swap.mpr c1, Slice.cutPt_swap (z := z) c1.ne, rfl⟩

theorem crosses_no {a b : P} {x y : Int} (ha : (W a).z = x) (hb : (W b).z = y) (h : ¬ Between z x y) :
    ¬ Crosses z (W a, W b) ∧ ¬ Crosses z (W b, W a) := by
  have c1 : ¬ Crosses z (W a, W b) := by unfold Crosses; rw [ha, hb]; exact h
  exact ⟨c1, fun x => c1 (Slice.crosses_swap.mpr x)⟩

theorem not_between_self (x : Int) : ¬ Between z x x := by unfold Between; omega

theorem face_cuts {Z : Nat → Int} {fn L : Nat} {hasTop : Bool} (hW : Heights W Z fn L hasTop) (tri : Tri) (hf : 3 ≤ fn)
    (hL : 1 ≤ L) {f : FaceId} (hfi : f ∈ ids fn L hasTop tri) :
    (cuts z (sides ((gface fn L tri f).map W))).length ≤ 2 ∧
      (pairOf (cuts z (sides ((gface fn L tri f).map W)))).map mk = (want z W Z fn L tri f).map mk := by
  have flat : ∀ c (l : List P), (∀ p ∈ l, (W p).z = c) → cuts z (sides (l.map W)) = [] := by
    intro c l h
    apply cuts_flat z c
    intro v hv
    rw [List.mem_map] at hv
    obtain ⟨p, hp, rfl⟩ := hv
    exact h p hp
  rcases mem_ids hfi with rfl | ⟨rfl, rfl⟩ | ⟨k, j, rfl, hk, hj⟩ | ⟨k, j, rfl, hk, hj, ht⟩ | ⟨j, rfl, hj, rfl⟩
  · rw [flat (Z 0)]
    · exact ⟨by simp, rfl⟩
    · intro p hp
      simp only [gface, List.mem_map, List.mem_range] at hp
      obtain ⟨j, hj, rfl⟩ := hp
      exact hW.layer 0 j (by omega) hj
  · rw [flat (Z (L - 1))]
    · exact ⟨by simp, rfl⟩
    · intro p hp
      simp only [gface, List.mem_reverse, List.mem_map, List.mem_range] at hp
      obtain ⟨j, hj, rfl⟩ := hp
      exact hW.layer (L - 1) j (by omega) hj
  · have hw := wrapAdd1_lt hj
    have z1 := hW.layer k j (by omega) hj
    have z2 := hW.layer k (wrapAdd1 j fn) (by omega) hw
    have z3 := hW.layer (k + 1) j hk hj
    have z4 := hW.layer (k + 1) (wrapAdd1 j fn) hk hw
    have s1 := crosses_no z W z1 z2 (not_between_self z _)
    have s2 := crosses_no z W z3 z4 (not_between_self z _)
    by_cases hb : Between z (Z k) (Z (k + 1))
    · have c1 := crosses_up z W (Z := Z) z1 z3 hb
      have c2 := crosses_up z W (Z := Z) z2 z4 hb
      have c3 := crosses_up z W (Z := Z) z1 z4 hb
      have c4 := crosses_up z W (Z := Z) z2 z3 hb
      cases tri <;>
        simp [gface, want, hb, sides, walk, Slice.cuts_cons, cuts, s1, s2, c1, c2, c3, c4, pairOf, mk_swap]
    · have c1 := crosses_no z W z1 z3 hb
      have c2 := crosses_no z W z2 z4 hb
      have c3 := crosses_no z W z1 z4 hb
      have c4 := crosses_no z W z2 z3 hb
      cases tri <;>
        simp [gface, want, hb, sides, walk, Slice.cuts_cons, cuts, s1, s2, c1, c2, c3, c4, pairOf]
  · have hw := wrapAdd1_lt hj
    have z1 := hW.layer k j (by omega) hj
    have z2 := hW.layer k (wrapAdd1 j fn) (by omega) hw
    have z3 := hW.layer (k + 1) j hk hj
    have z4 := hW.layer (k + 1) (wrapAdd1 j fn) hk hw
    have s1 := crosses_no z W z1 z2 (not_between_self z _)
    have s2 := crosses_no z W z3 z4 (not_between_self z _)
    by_cases hb : Between z (Z k) (Z (k + 1))
    · have c1 := crosses_up z W (Z := Z) z1 z3 hb
      have c2 := crosses_up z W (Z := Z) z2 z4 hb
      have c3 := crosses_up z W (Z := Z) z1 z4 hb
      have c4 := crosses_up z W (Z := Z) z2 z3 hb
      cases tri <;>
        simp [gface, want, hb, sides, walk, Slice.cuts_cons, cuts, s1, s2, c1, c2, c3, c4, pairOf, mk_swap]
    · have c1 := crosses_no z W z1 z3 hb
      have c2 := crosses_no z W z2 z4 hb
      have c3 := crosses_no z W z1 z4 hb
      have c4 := crosses_no z W z2 z3 hb
      cases tri <;>
        simp [gface, want, hb, sides, walk, Slice.cuts_cons, cuts, s1, s2, c1, c2, c3, c4, pairOf]
  · have hw := wrapAdd1_lt hj
    have z1 := hW.layer (L - 1) j (by omega) hj
    have z2 := hW.layer (L - 1) (wrapAdd1 j fn) (by omega) hw
    have z3 := hW.apex rfl
    have s1 := crosses_no z W z1 z2 (not_between_self z _)
    by_cases hb : Between z (Z (L - 1)) (Z L)
    · have c1 := crosses_up z W (Z := Z) z1 z3 hb
      have c2 := crosses_up z W (Z := Z) z2 z3 hb
      simp [gface, want, hb, sides, walk, Slice.cuts_cons, cuts, s1, c1, c2, pairOf, mk_swap]
    · have c1 := crosses_no z W z1 z3 hb
      have c2 := crosses_no z W z2 z3 hb
      simp [gface, want, hb, sides, walk, Slice.cuts_cons, cuts, s1, c1, c2, pairOf]

end

end Hob3l.Solid
