import Verif.Solid.LemmasTower

/-
Running `rotate_extrude`: the faces of one arc as an explicit list, and closedness.
-/

namespace Hob3l.Solid

open Hob3l.Slice (sides walk)

/-! ## the partition of the points -/

/-- what the array `idx` says about the points: position on the axis or position off the axis -/
theorem partition_spec (pts : List Side) (idx0 : List Nat) (x0 xi : Nat) :
    ∃ l, partition pts idx0 x0 xi = (idx0 ++ l, x0 + pts.countP (· = .axis), xi + pts.countP (· ≠ .axis)) ∧
      l.length = pts.length ∧
      ∀ i (h : i < pts.length), l[i]? =
        some (if pts[i] = .axis then 2 * (x0 + (pts.take i).countP (· = .axis))
          else 2 * (xi + (pts.take i).countP (· ≠ .axis)) + 1) := by
  induction pts generalizing idx0 x0 xi with
  | nil => exact ⟨[], by simp [partition], rfl, fun i h => absurd h (by simp)⟩
  | cons p pts ih =>
    by_cases hp : p = .axis
    · subst hp
      obtain ⟨l, h1, h2, h3⟩ := ih (idx0 ++ [2 * x0]) (x0 + 1) xi
      refine ⟨2 * x0 :: l, ?_, by simp [h2], ?_⟩
      · simp only [partition, h1]
        simp
        omega
      · intro i hi
        cases i with
        | zero => simp
        | succ i =>
          have := h3 i (by simpa using hi)
          simp only [List.getElem?_cons_succ, this, List.getElem_cons_succ, List.take_succ_cons]
          simp
          split_ifs <;> omega
    · obtain ⟨l, h1, h2, h3⟩ := ih (idx0 ++ [2 * xi + 1]) x0 (xi + 1)
      refine ⟨(2 * xi + 1) :: l, ?_, by simp [h2], ?_⟩
      · have : partition (p :: pts) idx0 x0 xi = partition pts (idx0 ++ [2 * xi + 1]) x0 (xi + 1) := by
          cases p <;> first | exact absurd rfl hp | rfl
        rw [this, h1]
        simp [hp]
        omega
      · intro i hi
        cases i with
        | zero => simp [hp]
        | succ i =>
          have := h3 i (by simpa using hi)
          simp only [List.getElem?_cons_succ, this, List.getElem_cons_succ, List.take_succ_cons]
          simp [hp]
          split_ifs <;> omega

/-- the number of the point made from point `i` of the polygon in slice `j` -/
def vnum (pts : List Side) (i j : Nat) : Nat :=
  if pts[i]? = some .axis then (pts.take i).countP (· = .axis)
  else (pts.take i).countP (· ≠ .axis) + pts.countP (· = .axis) + pts.countP (· ≠ .axis) * j

theorem countP_take_lt {α : Type} (p : α → Bool) (l : List α) (i : Nat) (h : i < l.length) (hp : p l[i] = true) :
    (l.take i).countP p < l.countP p := by
  have : l = l.take i ++ (l[i] :: l.drop (i + 1)) := by simp
  calc (l.take i).countP p < (l.take i ++ (l[i] :: l.drop (i + 1))).countP p := by
        rw [List.countP_append, List.countP_cons, if_pos hp]; omega
    _ = l.countP p := by rw [← this]

theorem countP_take_mono {α : Type} (p : α → Bool) (l : List α) (i k : Nat) (hik : i < k) (hk : k ≤ l.length)
    (hp : p (l[i]'(by omega)) = true) : (l.take i).countP p < (l.take k).countP p := by
  have h1 : i < (l.take k).length := by simp; omega
  have := countP_take_lt p (l.take k) i h1 (by simpa using hp)
  rwa [List.take_take, Nat.min_eq_left (by omega)] at this

theorem countP_take_inj {α : Type} (p : α → Bool) (l : List α) (i k : Nat) (hi : i < l.length) (hk : k < l.length)
    (pi : p l[i] = true) (pk : p l[k] = true) (h : (l.take i).countP p = (l.take k).countP p) : i = k := by
  rcases Nat.lt_trichotomy i k with c | c | c
  · have := countP_take_mono p l i k c (by omega) pi; omega
  · exact c
  · have := countP_take_mono p l k i c (by omega) pk; omega

theorem mul_add_inj {n a b j k : Nat} (ha : a < n) (hb : b < n) (h : a + n * j = b + n * k) : a = b ∧ j = k := by
  have e1 : (a + n * j) % n = a := by rw [Nat.add_mul_mod_self_left, Nat.mod_eq_of_lt ha]
  have e2 : (b + n * k) % n = b := by rw [Nat.add_mul_mod_self_left, Nat.mod_eq_of_lt hb]
  have : a = b := by rw [← e1, ← e2, h]
  subst this
  exact ⟨rfl, Nat.eq_of_mul_eq_mul_left (Nat.lt_of_le_of_lt (Nat.zero_le a) ha) (Nat.add_left_cancel h)⟩

theorem count_split (pts : List Side) : pts.countP (· = .axis) + pts.countP (· ≠ .axis) = pts.length := by
  induction pts with
  | nil => rfl
  | cons p pts ih =>
    simp only [List.countP_cons, List.length_cons]
    by_cases h : p = .axis <;> simp [h] at ih ⊢ <;> omega

/-- different points (after identifying all slices of a point on the axis) have different numbers -/
theorem vnum_inj (pts : List Side) {i k j l : Nat} (hi : i < pts.length) (hk : k < pts.length)
    (h : vnum pts i j = vnum pts k l) : i = k ∧ (pts[i]? = some .axis ∨ j = l) := by
  have g : ∀ x (hx : x < pts.length), pts[x]? = some pts[x] := fun x hx => List.getElem?_eq_getElem hx
  unfold vnum at h
  by_cases c1 : pts[i]? = some .axis
  · rw [if_pos c1] at h
    have p1 : decide (pts[i] = .axis) = true := by rw [g i hi] at c1; simpa using c1
    have l1 := countP_take_lt (fun x => decide (x = Side.axis)) pts i hi p1
    by_cases c2 : pts[k]? = some .axis
    · rw [if_pos c2] at h
      have p2 : decide (pts[k] = .axis) = true := by rw [g k hk] at c2; simpa using c2
      exact ⟨countP_take_inj (fun x => decide (x = Side.axis)) pts i k hi hk p1 p2 h, Or.inl c1⟩
    · rw [if_neg c2] at h
      generalize List.countP (fun x => decide (x ≠ Side.axis)) pts * l = z at h
      omega
  · rw [if_neg c1] at h
    have p1 : decide (pts[i] ≠ .axis) = true := by rw [g i hi] at c1; simpa using c1
    have l1 := countP_take_lt (fun x => decide (x ≠ Side.axis)) pts i hi p1
    by_cases c2 : pts[k]? = some .axis
    · rw [if_pos c2] at h
      have p2 : decide (pts[k] = .axis) = true := by rw [g k hk] at c2; simpa using c2
      have l2 := countP_take_lt (fun x => decide (x = Side.axis)) pts k hk p2
      generalize List.countP (fun x => decide (x ≠ Side.axis)) pts * j = z at h
      omega
    · rw [if_neg c2] at h
      have p2 : decide (pts[k] ≠ .axis) = true := by rw [g k hk] at c2; simpa using c2
      have l2 := countP_take_lt (fun x => decide (x ≠ Side.axis)) pts k hk p2
      obtain ⟨e1, e2⟩ := mul_add_inj l1 l2 (j := j) (k := l) (by omega)
      exact ⟨countP_take_inj (fun x => decide (x ≠ Side.axis)) pts i k hi hk p1 p2 e1, Or.inr e2⟩

theorem vnum_lt (pts : List Side) {i j slices : Nat} (hi : i < pts.length) (hj : j < slices) :
    vnum pts i j < pts.countP (· = .axis) + pts.countP (· ≠ .axis) * slices := by
  have g : pts[i]? = some pts[i] := List.getElem?_eq_getElem hi
  unfold vnum
  by_cases c1 : pts[i]? = some .axis
  · rw [if_pos c1]
    have p1 : decide (pts[i] = .axis) = true := by rw [g] at c1; simpa using c1
    have l1 := countP_take_lt (fun x => decide (x = Side.axis)) pts i hi p1
    exact Nat.lt_of_lt_of_le l1 (Nat.le_add_right _ _)
  · rw [if_neg c1]
    have p1 : decide (pts[i] ≠ .axis) = true := by rw [g] at c1; simpa using c1
    have l1 := countP_take_lt (fun x => decide (x ≠ Side.axis)) pts i hi p1
    generalize List.countP (fun x => decide (x ≠ Side.axis)) pts = n at *
    have : n * (j + 1) ≤ n * slices := Nat.mul_le_mul_left n (by omega)
    rw [Nat.mul_add] at this
    omega

/-! ## running one arc -/

theorem loop_emit {α β : Type} (f : α → List β → Option (List β)) (g : α → List β) (l : List α)
    (h : ∀ a ∈ l, ∀ s, f a s = some (s ++ g a)) (s : List β) : loop f l s = some (s ++ l.flatMap g) := by
  induction l generalizing s with
  | nil => simp [loop]
  | cons a l ih =>
    simp only [loop, h a (by simp), Option.bind_eq_bind, Option.bind_some]
    rw [ih (fun b hb => h b (by simp [hb]))]
    simp

theorem loop_unit {α : Type} (f : α → Unit → Option Unit) (l : List α) (h : ∀ a ∈ l, f a () = some ()) :
    loop f l () = some () := by
  induction l with
  | nil => rfl
  | cons a l ih =>
    simp only [loop, h a (by simp), Option.bind_eq_bind, Option.bind_some]
    exact ih fun b hb => h b (by simp [hb])

/-- the faces pushed for four points -/
def quad (R : Bool) (a b c d : Nat) : List (List Nat) :=
  if (filter4 a b c d).length < 3 then [] else [revPerhaps R (filter4 a b c d)]

/-- the faces of an arc -/
def arcFaces (r : Nat → Nat → Nat) (R : Bool) (paths : List (List Nat)) (slices : Nat) : List (List Nat) :=
  ((List.range (slices - 1)).flatMap fun j => paths.flatMap fun path => (sides path).flatMap fun s =>
    quad R (r s.1 j) (r s.2 j) (r s.2 (j + 1)) (r s.1 (j + 1))) ++
  paths.flatMap fun path => [revPerhaps (!R) (path.map fun i => r i 0), revPerhaps R (path.map fun i => r i (slices - 1))]

theorem filter4_mem {a b c d x : Nat} (h : x ∈ filter4 a b c d) : x = a ∨ x = b ∨ x = c ∨ x = d := by
  unfold filter4 at h
  simp only [List.mem_append] at h
  rcases h with ((h | h) | h) | h
  · simp at h; exact Or.inl h
  · split at h <;> simp at h; exact Or.inr (Or.inl h)
  · split at h <;> simp at h; exact Or.inr (Or.inr (Or.inl h))
  · split at h <;> simp at h; exact Or.inr (Or.inr (Or.inr h))

theorem pushFace4_quad {size a b c d : Nat} (R : Bool) (ha : a < size) (hb : b < size) (hc : c < size) (hd : d < size)
    (fs : List (List Nat)) : pushFace4 size a b c d R fs = some (fs ++ quad R a b c d) := by
  unfold pushFace4 quad
  simp only
  split_ifs with h
  · simp
  · have : ((filter4 a b c d).all fun i => decide (i < size)) = true := by
      rw [List.all_eq_true]
      intro x hx
      rcases filter4_mem hx with rfl | rfl | rfl | rfl <;> simpa
    simp [this, ass]

theorem sides_index {α : Type} (l : List α) (d : α) :
    sides l = (List.range l.length).map fun j => ((l[j]?).getD d, (l[wrapAdd1 j l.length]?).getD d) := by
  have e : l = (List.range l.length).map fun j => (l[j]?).getD d := by
    apply List.ext_getElem
    · simp
    · intro i h1 h2
      simp [h1]
  conv_lhs => rw [e]
  rw [sides_range]

theorem mapM_some {α β : Type} (f : α → Option β) (g : α → β) (l : List α) (h : ∀ a ∈ l, f a = some (g a)) :
    l.mapM f = some (l.map g) := by
  induction l with
  | nil => rfl
  | cons a l ih =>
    rw [List.mapM_cons, h a (by simp), ih fun b hb => h b (by simp [hb])]
    rfl

theorem rotextArc_run (pts : List Side) (paths : List (List Nat)) (hp : ∀ path ∈ paths, ∀ i ∈ path, i < pts.length)
    (slices : Nat) (hs : 2 ≤ slices) (R : Bool) :
    rotextArc pts.length paths (partition pts [] 0 0).1 (partition pts [] 0 0).2.1 slices R =
      some (pts.countP (· = .axis) + pts.countP (· ≠ .axis) * slices, arcFaces (vnum pts) R paths slices) := by
  obtain ⟨idx, h1, h2, h3⟩ := partition_spec pts [] 0 0
  have hxi : pts.length - pts.countP (· = .axis) = pts.countP (· ≠ .axis) := by have := count_split pts; omega
  simp only [h1, List.nil_append, Nat.zero_add] at h3 ⊢
  -- the numbers
  have hr : ∀ i j, i < pts.length →
      rotextIdx (pts.countP (· = .axis)) (pts.countP (· ≠ .axis)) idx i j = some (vnum pts i j) := by
    intro i j hi
    unfold rotextIdx vnum
    rw [h3 i hi, List.getElem?_eq_getElem hi]
    simp only [Option.bind_eq_bind, Option.bind_some, Option.some.injEq]
    by_cases c : pts[i] = .axis
    · have l1 := countP_take_lt (fun x => decide (x = Side.axis)) pts i hi (by simpa using c)
      simp only [c, if_true]
      rw [if_neg (by omega)]
      simp [ass, l1]
    · simp only [c, if_false]
      rw [if_pos (by omega)]
      simp only [Option.pure_def, Option.some.injEq]
      congr 2
      omega
  unfold rotextArc
  simp only [hxi]
  generalize hS : pts.countP (· = .axis) + pts.countP (· ≠ .axis) * slices = S
  have hlt : ∀ i j, i < pts.length → j < slices → vnum pts i j < S := by
    intro i j hi hj
    rw [← hS]
    exact vnum_lt pts hi hj
  generalize pts.countP (· = .axis) = x0 at *
  generalize pts.countP (· ≠ .axis) = xi at *
  have hpts : loop (fun i _ => arcPoints x0 xi S idx slices i) (sizeEach pts.length 0 0) () = some () := by
    apply loop_unit
    intro i hi
    rw [sizeEach_zero, List.mem_range] at hi
    unfold arcPoints
    rw [h3 i hi]
    simp only [Option.bind_eq_bind, Option.bind_some]
    split_ifs with c1 c2
    · omega
    · simp [hr i 0 hi, ass, hlt i 0 hi (by omega)]
    · apply loop_unit
      intro j hj
      rw [sizeEach_zero, List.mem_range] at hj
      simp [hr i j hi, ass, hlt i j hi hj]
    · omega
  have hside : ∀ fs, loop (fun j1 fs => loop (fun path fs =>
      loop (arcSide x0 xi S idx R (j1 - 1) j1 path) (sizeEach path.length 0 0) fs) paths fs) (sizeEach slices 1 0) fs =
      some (fs ++ (List.range (slices - 1)).flatMap fun j => paths.flatMap fun path => (sides path).flatMap fun s =>
        quad R (vnum pts s.1 j) (vnum pts s.2 j) (vnum pts s.2 (j + 1)) (vnum pts s.1 (j + 1))) := by
    intro fs
    rw [loop_emit _ (fun j1 => paths.flatMap fun path => (sides path).flatMap fun s =>
        quad R (vnum pts s.1 (j1 - 1)) (vnum pts s.2 (j1 - 1)) (vnum pts s.2 j1) (vnum pts s.1 j1))]
    · rw [sizeEach_succ, List.flatMap_map]
      rfl
    · intro j1 hj1 fs
      rw [mem_sizeEach] at hj1
      rw [loop_emit]
      intro path hpath fs
      rw [sides_index path 0, List.flatMap_map, sizeEach_zero]
      rw [loop_emit]
      intro l hl fs
      rw [List.mem_range] at hl
      have hw := wrapAdd1_lt hl
      have g1 := List.getElem?_eq_getElem hl
      have g2 := List.getElem?_eq_getElem hw
      have p1 := hp path hpath _ (List.getElem_mem hl)
      have p2 := hp path hpath _ (List.getElem_mem hw)
      unfold arcSide
      simp only [g1, g2, hr _ _ p1, hr _ _ p2, Option.bind_eq_bind, Option.bind_some, Option.getD_some]
      exact pushFace4_quad R (hlt _ _ p1 (by omega)) (hlt _ _ p2 (by omega)) (hlt _ _ p2 (by omega))
        (hlt _ _ p1 (by omega)) fs
  have hend : ∀ fs, loop (fun path fs => do
      let fs ← endFace x0 xi S idx (!R) 0 path fs
      endFace x0 xi S idx R (slices - 1) path fs) paths fs =
      some (fs ++ paths.flatMap fun path =>
        [revPerhaps (!R) (path.map fun i => vnum pts i 0), revPerhaps R (path.map fun i => vnum pts i (slices - 1))]) := by
    intro fs
    apply loop_emit
    intro path hpath fs
    have key : ∀ R' j, j < slices → ∀ fs, endFace x0 xi S idx R' j path fs =
        some (fs ++ [revPerhaps R' (path.map fun i => vnum pts i j)]) := by
      intro R' j hj fs
      unfold endFace
      rw [mapM_some _ (fun i => vnum pts i j) path (fun i hi => hr i j (hp path hpath i hi))]
      have : ((path.map fun i => vnum pts i j).all fun i => decide (i < S)) = true := by
        rw [List.all_eq_true]
        intro x hx
        rw [List.mem_map] at hx
        obtain ⟨i, hi, rfl⟩ := hx
        simpa using hlt i j (hp path hpath i hi) hj
      simp only [this, ass, if_true, Option.bind_eq_bind, Option.bind_some, Option.pure_def]
    rw [key (!R) 0 (by omega), Option.bind_eq_bind, Option.bind_some, key R (slices - 1) (by omega)]
    simp
  simp only [hs, decide_true, ass, if_true, Option.bind_eq_bind, Option.bind_some, hpts, hside, Option.pure_def]
  have := hend (([] : List (List Nat)) ++ (List.range (slices - 1)).flatMap fun j => paths.flatMap fun path =>
    (sides path).flatMap fun s =>
        quad R (vnum pts s.1 j) (vnum pts s.2 j) (vnum pts s.2 (j + 1)) (vnum pts s.1 (j + 1)))
  simp only [Option.bind_eq_bind] at this
  rw [this]
  simp [arcFaces]

/-! ## closed -/

theorem revPerhaps_eq (R : Bool) : revPerhaps R = revPerhaps R := rfl

theorem quad_rev (R : Bool) (a b c d : Nat) : quad R a b c d = (quad false a b c d).map (revPerhaps R) := by
  unfold quad
  split_ifs <;> rfl

/-- turning all faces over -/
theorem arcFaces_rev (r : Nat → Nat → Nat) (R : Bool) (paths : List (List Nat)) (slices : Nat) :
    arcFaces r R paths slices = (arcFaces r false paths slices).map (revPerhaps R) := by
  unfold arcFaces
  rw [List.map_append, List.map_flatMap, List.map_flatMap]
  congr 1
  · congr 1
    funext j
    rw [List.map_flatMap]
    congr 1
    funext path
    rw [List.map_flatMap]
    congr 1
    funext s
    exact quad_rev R _ _ _ _
  · congr 1
    funext path
    cases R <;> simp [revPerhaps]

/-- weight of a face list -/
theorem quad_esum {e : Nat → Nat → Int} (h : Anti e) {a b c d : Nat}
    (hc : (a = b ∧ c = d) ∨ (a ≠ b ∧ a ≠ c ∧ b ≠ d ∧ c ≠ d)) :
    esum e (allSides (quad false a b c d)) = e a b + e b c + e c d + e d a := by
  unfold quad filter4 allSides
  rcases hc with ⟨rfl, rfl⟩ | ⟨h1, h2, h3, h4⟩
  · have := h a c
    have e1 := h.self a
    have e2 := h.self c
    by_cases hac : a = c
    · subst hac; simp [e1]
    · simp [hac, e1, e2]; omega
  · by_cases h5 : a = d
    · subst h5
      by_cases h6 : b = c
      · subst h6
        have := h a b
        simp [h1, h.self]; omega
      · have := h.self a
        simp [h1, h2, h6, revPerhaps, sides, walk, this]
        omega
    · by_cases h6 : b = c
      · subst h6
        have := h.self b
        simp [h1, h3, h5, revPerhaps, sides, walk, this]
        omega
      · simp [h1, h2, h3, h4, h5, h6, revPerhaps, sides, walk]
        omega

theorem walk_telescope (f : Nat → Int) (a : Nat) (l : List Nat) (c : Nat) :
    ((walk a l c).map fun s => f s.2 - f s.1).sum = f c - f a := by
  induction l generalizing a with
  | nil => simp [walk]
  | cons b l ih => simp [walk, ih]

theorem sides_telescope (f : Nat → Int) (l : List Nat) : ((sides l).map fun s => f s.2 - f s.1).sum = 0 := by
  cases l with
  | nil => rfl
  | cons a l => rw [sides, walk_telescope]; omega

theorem allSides_append {α : Type} (l m : List (List α)) : allSides (l ++ m) = allSides l ++ allSides m := by
  simp [allSides]

theorem allSides_flatMap {α β : Type} (l : List α) (g : α → List (List β)) :
    allSides (l.flatMap g) = l.flatMap fun a => allSides (g a) := by
  simp [allSides, List.flatMap_assoc]

/-- the sum over the outlines at slice `j` -/
def outline (e : Nat → Nat → Int) (r : Nat → Nat → Nat) (paths : List (List Nat)) (j : Nat) : Int :=
  (paths.map fun path => ((sides path).map fun s => e (r s.1 j) (r s.2 j)).sum).sum

theorem sum_map_add {α : Type} (l : List α) (f g : α → Int) :
    (l.map fun a => f a + g a).sum = (l.map f).sum + (l.map g).sum := by
  induction l with
  | nil => rfl
  | cons a l ih => simp [ih]; ring

theorem sum_map_sub {α : Type} (l : List α) (f g : α → Int) :
    (l.map fun a => f a - g a).sum = (l.map f).sum - (l.map g).sum := by
  induction l with
  | nil => rfl
  | cons a l ih => simp [ih]; ring

theorem arc_esum {e : Nat → Nat → Int} (h : Anti e) (n : Nat) (r : Nat → Nat → Nat)
    (hr : ∀ i k j l, i < n → k < n → r i j = r k l → i = k) (paths : List (List Nat))
    (hp : ∀ path ∈ paths, ∀ i ∈ path, i < n) (slices : Nat) :
    esum e (allSides (arcFaces r false paths slices)) = 0 := by
  unfold arcFaces
  rw [allSides_append, esum_append]
  have hl : ∀ j, esum e (allSides (paths.flatMap fun path => (sides path).flatMap fun s =>
      quad false (r s.1 j) (r s.2 j) (r s.2 (j + 1)) (r s.1 (j + 1)))) =
      outline e r paths j - outline e r paths (j + 1) := by
    intro j
    unfold outline
    rw [allSides_flatMap, esum_flatMap, ← sum_map_sub]
    congr 1
    apply List.map_congr_left
    intro path hpath
    rw [allSides_flatMap, esum_flatMap, ← sum_map_sub]
    have key : ∀ s ∈ sides path, esum e (allSides (quad false (r s.1 j) (r s.2 j) (r s.2 (j + 1)) (r s.1 (j + 1)))) =
        (e (r s.1 j) (r s.2 j) - e (r s.1 (j + 1)) (r s.2 (j + 1))) +
        (e (r s.2 j) (r s.2 (j + 1)) - e (r s.1 j) (r s.1 (j + 1))) := by
      intro s hs
      have m := mem_sides hs
      have n1 := hp path hpath _ m.1
      have n2 := hp path hpath _ m.2
      rw [quad_esum h]
      · rw [h (r s.2 (j + 1)) (r s.1 (j + 1)), h (r s.1 (j + 1)) (r s.1 j)]
        omega
      · by_cases c : s.1 = s.2
        · left; rw [c]; exact ⟨rfl, rfl⟩
        · right
          exact ⟨fun x => c (hr _ _ _ _ n1 n2 x), fun x => c (hr _ _ _ _ n1 n2 x),
            fun x => c (hr _ _ _ _ n2 n1 x).symm, fun x => c (hr _ _ _ _ n2 n1 x).symm⟩
    rw [List.map_congr_left key, sum_map_add]
    have := sides_telescope (fun i => e (r i j) (r i (j + 1))) path
    rw [this]
    omega
  have hsum : ∀ m, esum e (allSides ((List.range m).flatMap fun j => paths.flatMap fun path => (sides path).flatMap fun s =>
      quad false (r s.1 j) (r s.2 j) (r s.2 (j + 1)) (r s.1 (j + 1)))) = outline e r paths 0 - outline e r paths m := by
    intro m
    induction m with
    | zero => simp [allSides]
    | succ m ih =>
      rw [List.range_succ, List.flatMap_append, allSides_append, esum_append, ih]
      simp only [List.flatMap_cons, List.flatMap_nil, List.append_nil]
      rw [hl]
      omega
  rw [hsum]
  have hends : esum e (allSides (paths.flatMap fun path =>
      [revPerhaps (!false) (path.map fun i => r i 0), revPerhaps false (path.map fun i => r i (slices - 1))])) =
      outline e r paths (slices - 1) - outline e r paths 0 := by
    unfold outline
    rw [allSides_flatMap, esum_flatMap, ← sum_map_sub]
    congr 1
    apply List.map_congr_left
    intro path _
    have a1 : ∀ j, esum e (sides (path.map fun i => r i j)) = ((sides path).map fun s => e (r s.1 j) (r s.2 j)).sum := by
      intro j
      rw [sides_map]
      simp [esum, Function.comp_def]
    simp only [allSides, List.flatMap_cons, List.flatMap_nil, List.append_nil, esum_append, revPerhaps, Bool.not_false,
      if_true, Bool.false_eq_true, if_false]
    rw [esum_perm e (sides_reverse _), esum_swap h, a1, a1]
    omega
  rw [hends]
  omega

theorem arc_closed (n : Nat) (r : Nat → Nat → Nat)
    (hr : ∀ i k j l, i < n → k < n → r i j = r k l → i = k) (R : Bool) (paths : List (List Nat))
    (hp : ∀ path ∈ paths, ∀ i ∈ path, i < n) (slices : Nat) : Closed (arcFaces r R paths slices) := by
  rw [arcFaces_rev]
  have h : Closed (arcFaces r false paths slices) := closed_of_esum fun e he => arc_esum he n r hr paths hp slices
  cases R
  · have : revPerhaps false = id := by funext l; rfl
    rw [this, List.map_id]; exact h
  · have : revPerhaps true = List.reverse := by funext l; rfl
    rw [this]; exact closed_reverse h

end Hob3l.Solid
