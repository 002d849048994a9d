import Verif.Solid.LemmasSection
import Verif.Solid.LemmasArcOnce

/-
The towers behind the shapes.
-/

namespace Hob3l.Solid

open Hob3l.Slice (sides walk Vec3 Watertight uses)

/-- faces of a tower -/
def tfaces (fn fnz : Nat) (hasTop R : Bool) (tri : Tri) : List (List Nat) :=
  (ids fn (layers fnz hasTop) hasTop tri).map fun f => revPerhaps R ((gface fn (layers fnz hasTop) tri f).map (num fn))

theorem towerFaces_eq (fn fnz : Nat) (hasTop neg rev : Bool) (tri : Tri) (hf : 3 ≤ fn) (hz : 2 ≤ fnz) :
    towerFaces (towerSize fn fnz hasTop) fn fnz neg rev tri = some (tfaces fn fnz hasTop (rev ^^ neg) tri) := by
  rw [towerFaces_run fn fnz hasTop neg rev tri hf hz, towerCmds_faces fn fnz hasTop _ tri hf hz]
  rfl

theorem towerSize_true (fn fnz : Nat) : towerSize fn fnz true = fn * fnz := by simp [towerSize, layers]

theorem towerSize_false (fn fnz : Nat) : towerSize fn fnz false = fn * (fnz - 1) + 1 := by simp [towerSize, layers]

theorem ids_length (fn L : Nat) (hasTop : Bool) (tri : Tri) :
    (ids fn L hasTop tri).length = (1 + hasTop.toNat) + (L - 1) * ((if tri = .none then 1 else 2) * fn) + (!hasTop).toNat * fn := by
  have h1 : ∀ i (r : List Nat), (r.flatMap fun j => sideIds tri i j).length = (if tri = .none then 1 else 2) * r.length := by
    intro i r
    induction r with
    | nil => rfl
    | cons a r ih =>
      rw [List.flatMap_cons, List.length_append, ih, List.length_cons]
      cases tri <;> simp [sideIds] <;> ring
  have h2 : ∀ m : List Nat, (m.flatMap fun i => (List.range fn).flatMap fun j => sideIds tri i j).length =
      m.length * ((if tri = .none then 1 else 2) * fn) := by
    intro m
    induction m with
    | nil => simp
    | cons a m ih =>
      rw [List.flatMap_cons, List.length_append, ih, h1, List.length_range, List.length_cons]
      ring
  unfold ids
  simp only [List.length_append, h2, List.length_range]
  cases hasTop <;> simp

theorem tfaces_reverse (fn fnz : Nat) (hasTop R : Bool) (tri : Tri) :
    tfaces fn fnz hasTop (!R) tri = (tfaces fn fnz hasTop R tri).map List.reverse := by
  unfold tfaces
  rw [List.map_map]
  apply List.map_congr_left
  intro f _
  cases R <;> simp [revPerhaps]

/-- the points and faces of a shape -/
structure Tower where
  fn : Nat
  fnz : Nat
  hasTop : Bool
  rev : Bool
  tri : Tri

theorem twoSided (fn fnz : Nat) (hasTop R : Bool) (tri : Tri) (hf : 3 ≤ fn) (hz : 2 ≤ fnz) :
    ProperFaces (towerSize fn fnz hasTop) (tfaces fn fnz hasTop R tri) ∧ TwoSided (tfaces fn fnz hasTop R tri) ∧
    Spherical (towerSize fn fnz hasTop) (tfaces fn fnz hasTop R tri) := by
  have hL : 1 ≤ layers fnz hasTop := by unfold layers; split_ifs <;> omega
  exact ⟨tower_proper fn fnz hasTop R tri hf hz,
    ⟨tower_closed fn _ hasTop R tri, tower_nodup fn _ hasTop R tri hf hL⟩, tower_euler fn fnz hasTop R tri hz⟩

/-- a tower per shape that is converted to a polyhedron -/
def towerOf (maxFn : Nat) : Shape → Tower
  | .cube => ⟨4, 2, true, false, .none⟩
  | .cylinder d cone => ⟨getFn d 3 maxFn false, 2, !cone, false, .none⟩
  | .sphere d => ⟨getFn d 3 maxFn true, (getFn d 3 maxFn true + 1) / 2, true, true, .none⟩
  | .linext pcnt slices cone twist =>
    ⟨pcnt, slices + 1, !cone, true, if twist = 0 then Tri.none else if twist > 0 then .right else .left⟩

def Tower.faces (t : Tower) (neg : Bool) : List (List Nat) := tfaces t.fn t.fnz t.hasTop (t.rev ^^ neg) t.tri
def Tower.size (t : Tower) : Nat := towerSize t.fn t.fnz t.hasTop

theorem getFn_ge {d maxFn : Nat} (h : 3 ≤ maxFn) : 3 ≤ getFn d 3 maxFn false := by
  unfold getFn; split_ifs <;> simp_all <;> omega

theorem getFn_circ {d maxFn : Nat} : getFn d 3 maxFn true = 0 ∨ 3 ≤ getFn d 3 maxFn true := by
  unfold getFn; split_ifs <;> simp_all <;> omega

theorem make_run (maxFn : Nat) (neg : Bool) (h : 3 ≤ maxFn) (s : Shape)
    (hs : ∀ p k c t, s = .linext p k c t → 3 ≤ p ∧ 1 ≤ k) (hx : ∀ d, s = .sphere d → getFn d 3 maxFn true ≠ 0) :
    make maxFn neg s = some (.poly (towerOf maxFn s).size ((towerOf maxFn s).faces neg)) ∧
      3 ≤ (towerOf maxFn s).fn ∧ 2 ≤ (towerOf maxFn s).fnz := by
  cases s with
  | cube =>
    refine ⟨?_, by simp [towerOf], by simp [towerOf]⟩
    have := towerFaces_eq 4 2 true neg false .none (by decide) (by decide)
    rw [towerSize_true] at this
    simp only [make]
    rw [show (8 : Nat) = 4 * 2 from rfl, this]
    rfl
  | cylinder d cone =>
    have h3 := getFn_ge (d := d) h
    refine ⟨?_, h3, by simp [towerOf]⟩
    have := towerFaces_eq (getFn d 3 maxFn false) 2 (!cone) neg false .none h3 (by decide)
    have es : (if cone = true then getFn d 3 maxFn false + 1 else 2 * getFn d 3 maxFn false) =
        towerSize (getFn d 3 maxFn false) 2 (!cone) := by
      cases cone
      · rw [Bool.not_false, towerSize_true]; simp; omega
      · rw [Bool.not_true, towerSize_false]; simp
    simp only [make, es, this, ass, decide_eq_true_eq, h3, if_true, Option.bind_eq_bind, Option.bind_some]
    rfl
  | sphere d =>
    have h3 : 3 ≤ getFn d 3 maxFn true := by
      rcases getFn_circ (d := d) (maxFn := maxFn) with e | e
      · exact absurd e (hx d rfl)
      · exact e
    have h2 : 2 ≤ (getFn d 3 maxFn true + 1) / 2 := by omega
    refine ⟨?_, h3, h2⟩
    have := towerFaces_eq (getFn d 3 maxFn true) ((getFn d 3 maxFn true + 1) / 2) true neg true .none h3 h2
    rw [towerSize_true] at this
    simp only [make, this, ass, decide_eq_true_eq, h3, h2, if_true, Option.bind_eq_bind, Option.bind_some,
      show getFn d 3 maxFn true > 0 by omega]
    rw [← towerSize_true]
    rfl
  | linext pcnt slices cone twist =>
    obtain ⟨hp, hk⟩ := hs _ _ _ _ rfl
    refine ⟨?_, hp, by simp [towerOf]; omega⟩
    have := towerFaces_eq pcnt (slices + 1) (!cone) neg true
      (if twist = 0 then Tri.none else if twist > 0 then .right else .left) hp (by omega)
    have es : (if cone = true then slices else slices + 1) * pcnt + cone.toNat = towerSize pcnt (slices + 1) (!cone) := by
      cases cone
      · rw [Bool.not_false, towerSize_true]; simp; ring
      · rw [Bool.not_true, towerSize_false]; simp; ring
    simp only [make, es, this, ass, decide_eq_true_eq, hp, if_true, Option.bind_eq_bind, Option.bind_some,
      if_neg (show ¬ slices < 1 by omega)]
    rfl

/-! ## watertight -/

theorem watertight_of_closed {fs : List (List Nat)} (h : Closed fs) (V : Nat → Vec3) : Watertight (fs.map (List.map V)) := by
  intro a b hab
  unfold uses
  have e : (fs.map (List.map V)).flatMap sides = (allSides fs).map (Prod.map V V) := allSides_map V fs
  rw [e]
  have hp := (closed_perm h).map (Prod.map V V)
  rw [List.map_map] at hp
  have hsw : (Prod.map V V) ∘ Prod.swap = Prod.swap ∘ (Prod.map V V) := by funext ⟨x, y⟩; rfl
  rw [hsw, ← List.map_map] at hp
  generalize (allSides fs).map (Prod.map V V) = l at hp
  have c1 : l.count (a, b) = l.count (b, a) := by
    have := hp.count_eq (a, b)
    rw [this, show (a, b) = Prod.swap (b, a) from rfl, List.count_map_of_injective l Prod.swap Prod.swap_injective]
  have c2 : ∀ m : List (Vec3 × Vec3), m.countP (fun s => decide (s = (a, b) ∨ s = (b, a))) = m.count (a, b) + m.count (b, a) := by
    intro m
    induction m with
    | nil => rfl
    | cons s m ih =>
      simp only [List.countP_cons, List.count_cons, ih]
      by_cases h1 : s = (a, b)
      · have h2 : s ≠ (b, a) := by rw [h1]; intro e; exact hab (Prod.ext_iff.mp e).1
        simp [h1, h2]
        have : ¬ (a = b ∧ b = a) := fun e => hab e.1
        simp [this]; omega
      · by_cases h2 : s = (b, a)
        · have : ¬ (b = a ∧ a = b) := fun e => hab e.2
          simp [h2, this]; omega
        · simp [h1, h2]
  rw [c2, c1]; omega

end Hob3l.Solid
