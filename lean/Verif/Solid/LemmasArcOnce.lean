import Verif.Solid.LemmasArc

/-
The faces of an arc of `rotate_extrude`: proper, and no directed side is used twice.
-/

namespace Hob3l.Solid

open Hob3l.Slice (sides walk)

theorem Simple.nodup {paths : List (List Nat)} (h : Simple paths) {p} (hp : p ∈ paths) : p.Nodup :=
  (List.nodup_flatten.mp h.1).1 p hp

theorem Simple.same {paths : List (List Nat)} (h : Simple paths) {p q} (hp : p ∈ paths) (hq : q ∈ paths) {a}
    (ap : a ∈ p) (aq : a ∈ q) : p = q := by
  have hd := List.pairwise_iff_getElem.mp (List.nodup_flatten.mp h.1).2
  obtain ⟨i, hi, rfl⟩ := List.mem_iff_getElem.mp hp
  obtain ⟨k, hk, rfl⟩ := List.mem_iff_getElem.mp hq
  rcases Nat.lt_trichotomy i k with c | c | c
  · exact (hd i k hi hk c ap aq).elim
  · subst c; rfl
  · exact (hd k i hk hi c aq ap).elim

theorem mem_sides_index {p : List Nat} {s : Nat × Nat} (h : s ∈ sides p) :
    ∃ k, ∃ hk : k < p.length, s = (p[k], p[wrapAdd1 k p.length]'(wrapAdd1_lt hk)) := by
  rw [sides_index p 0, List.mem_map] at h
  obtain ⟨k, hk, rfl⟩ := h
  rw [List.mem_range] at hk
  refine ⟨k, hk, ?_⟩
  rw [List.getElem?_eq_getElem hk, List.getElem?_eq_getElem (wrapAdd1_lt hk)]
  rfl

theorem wrapAdd1_inj {j k n : Nat} (hj : j < n) (hk : k < n) (h : wrapAdd1 j n = wrapAdd1 k n) : j = k := by
  have := wrapSub1_wrapAdd1 hj
  rw [h, wrapSub1_wrapAdd1 hk] at this
  exact this.symm

section
variable {paths : List (List Nat)} (h : Simple paths)
include h

theorem Simple.ne {p} (hp : p ∈ paths) {s} (hs : s ∈ sides p) : s.1 ≠ s.2 := by
  obtain ⟨k, hk, rfl⟩ := mem_sides_index hs
  intro e
  have := (List.Nodup.getElem_inj_iff (h.nodup hp)).mp e
  exact wrapAdd1_ne (h.2 p hp) this.symm

theorem Simple.succ {p q} (hp : p ∈ paths) (hq : q ∈ paths) {s t} (hs : s ∈ sides p) (ht : t ∈ sides q)
    (e : s.1 = t.1) : s = t ∧ p = q := by
  have : p = q := h.same hp hq (mem_sides hs).1 (e ▸ (mem_sides ht).1)
  subst this
  obtain ⟨k, hk, rfl⟩ := mem_sides_index hs
  obtain ⟨l, hl, rfl⟩ := mem_sides_index ht
  have := (List.Nodup.getElem_inj_iff (h.nodup hp)).mp e
  subst this
  exact ⟨rfl, rfl⟩

theorem Simple.pred {p q} (hp : p ∈ paths) (hq : q ∈ paths) {s t} (hs : s ∈ sides p) (ht : t ∈ sides q)
    (e : s.2 = t.2) : s = t ∧ p = q := by
  have : p = q := h.same hp hq (mem_sides hs).2 (e ▸ (mem_sides ht).2)
  subst this
  obtain ⟨k, hk, rfl⟩ := mem_sides_index hs
  obtain ⟨l, hl, rfl⟩ := mem_sides_index ht
  have := (List.Nodup.getElem_inj_iff (h.nodup hp)).mp e
  have := wrapAdd1_inj hk hl this
  subst this
  exact ⟨rfl, rfl⟩

theorem Simple.asymm {p q} (hp : p ∈ paths) (hq : q ∈ paths) {s t} (hs : s ∈ sides p) (ht : t ∈ sides q)
    (e1 : s.1 = t.2) (e2 : s.2 = t.1) : False := by
  have : p = q := h.same hp hq (mem_sides hs).1 (e1 ▸ (mem_sides ht).2)
  subst this
  obtain ⟨k, hk, rfl⟩ := mem_sides_index hs
  obtain ⟨l, hl, rfl⟩ := mem_sides_index ht
  have h1 := (List.Nodup.getElem_inj_iff (h.nodup hp)).mp e1
  have h2 := (List.Nodup.getElem_inj_iff (h.nodup hp)).mp e2
  subst h2
  exact wrapAdd1_wrapAdd1_ne (h.2 p hp) h1
end

/-- the faces of an arc -/
inductive ArcId
  | quad (j : Nat) (p : List Nat) (s : Nat × Nat)
  | front (p : List Nat)
  | back (p : List Nat)
deriving DecidableEq

def arcIds (paths : List (List Nat)) (slices : Nat) : List ArcId :=
  ((List.range (slices - 1)).flatMap fun j => paths.flatMap fun p => (sides p).map fun s => .quad j p s) ++
  paths.flatMap fun p => [.front p, .back p]

def arcFace (r : Nat → Nat → Nat) (slices : Nat) : ArcId → List (List Nat)
  | .quad j _ s => quad false (r s.1 j) (r s.2 j) (r s.2 (j + 1)) (r s.1 (j + 1))
  | .front p => [(p.map fun i => r i 0).reverse]
  | .back p => [p.map fun i => r i (slices - 1)]

theorem arcFaces_ids (r : Nat → Nat → Nat) (paths : List (List Nat)) (slices : Nat) :
    arcFaces r false paths slices = (arcIds paths slices).flatMap (arcFace r slices) := by
  unfold arcFaces arcIds
  rw [List.flatMap_append, List.flatMap_assoc, List.flatMap_assoc]
  congr 1
  congr 1
  funext j
  rw [List.flatMap_assoc]
  congr 1
  funext p
  rw [List.flatMap_map]
  rfl

theorem arcIds_nodup {paths : List (List Nat)} (h : Simple paths) (slices : Nat) : (arcIds paths slices).Nodup := by
  have hpn : paths.Nodup := by
    have hd := (List.nodup_flatten.mp h.1).2
    refine List.Pairwise.imp_of_mem ?_ hd
    rintro a b ha hb hab rfl
    have h3 := h.2 a ha
    cases a with
    | nil => simp at h3
    | cons x a => exact hab (List.mem_cons_self) (List.mem_cons_self)
  unfold arcIds
  rw [List.nodup_append]
  refine ⟨?_, ?_, ?_⟩
  · rw [List.nodup_flatMap]
    constructor
    · intro j _
      rw [List.nodup_flatMap]
      constructor
      · intro p hp
        exact List.Nodup.map (fun a b e => by injection e) (sides_nodup (h.nodup hp))
      · refine List.Pairwise.imp ?_ hpn
        intro a b hab
        simp only [Function.onFun]
        intro f hf hg
        simp only [List.mem_map] at hf hg
        obtain ⟨s, -, rfl⟩ := hf
        obtain ⟨t, -, e⟩ := hg
        injection e with e1 e2 e3
        exact hab e2.symm
    · refine List.Pairwise.imp ?_ List.nodup_range
      intro a b hab
      simp only [Function.onFun]
      intro f hf hg
      simp only [List.mem_flatMap, List.mem_map] at hf hg
      obtain ⟨_, -, s, -, rfl⟩ := hf
      obtain ⟨_, -, t, -, e⟩ := hg
      injection e with e1 e2 e3
      exact hab e1.symm
  · rw [List.nodup_flatMap]
    constructor
    · intro p _; simp
    · refine List.Pairwise.imp ?_ hpn
      intro a b hab
      simp only [Function.onFun]
      intro f hf hg
      simp at hf hg
      rcases hf with rfl | rfl <;> rcases hg with e | e <;> first | (injection e with e; exact hab e) | exact absurd e (by simp)
  · intro a ha b hb e
    subst e
    simp only [List.mem_flatMap, List.mem_map] at ha hb
    obtain ⟨_, -, _, -, _, -, rfl⟩ := ha
    obtain ⟨_, -, hb⟩ := hb
    simp at hb

theorem mem_arcIds {paths : List (List Nat)} {slices : Nat} {f : ArcId} (h : f ∈ arcIds paths slices) :
    (∃ j p s, f = .quad j p s ∧ j < slices - 1 ∧ p ∈ paths ∧ s ∈ sides p) ∨ (∃ p, f = .front p ∧ p ∈ paths) ∨
      ∃ p, f = .back p ∧ p ∈ paths := by
  unfold arcIds at h
  simp only [List.mem_append, List.mem_flatMap, List.mem_map, List.mem_range] at h
  rcases h with ⟨j, hj, p, hp, s, hs, rfl⟩ | ⟨p, hp, h⟩
  · exact Or.inl ⟨j, p, s, rfl, hj, hp, hs⟩
  · simp at h
    rcases h with rfl | rfl
    · exact Or.inr (Or.inl ⟨p, rfl, hp⟩)
    · exact Or.inr (Or.inr ⟨p, rfl, hp⟩)

/-- the numbers of the points: all slices of a point on the axis are the same, everything else is different -/
structure Numbering (n : Nat) (ax : Nat → Prop) (r : Nat → Nat → Nat) : Prop where
  inj : ∀ i k j l, i < n → k < n → r i j = r k l → i = k ∧ (ax i ∨ j = l)
  axis : ∀ i j l, ax i → r i j = r i l

/-- the sides of a quad -/
theorem mem_quad {n : Nat} {ax : Nat → Prop} {r : Nat → Nat → Nat} (hr : Numbering n ax r) {a b j : Nat} (ha : a < n)
    (hb : b < n) (hab : a ≠ b) {t : Nat × Nat}
    (h : t ∈ allSides (quad false (r a j) (r b j) (r b (j + 1)) (r a (j + 1)))) :
    (t = (r a j, r b j) ∧ ¬ (ax a ∧ ax b)) ∨ (t = (r b j, r b (j + 1)) ∧ ¬ ax b) ∨
    (t = (r b (j + 1), r a (j + 1)) ∧ ¬ (ax a ∧ ax b)) ∨ (t = (r a (j + 1), r a j) ∧ ¬ ax a) := by
  have n1 : r a j ≠ r b j := fun e => hab (hr.inj _ _ _ _ ha hb e).1
  have n2 : r a j ≠ r b (j + 1) := fun e => hab (hr.inj _ _ _ _ ha hb e).1
  have n3 : r b j ≠ r a (j + 1) := fun e => hab (hr.inj _ _ _ _ hb ha e).1.symm
  have n4 : r b (j + 1) ≠ r a (j + 1) := fun e => hab (hr.inj _ _ _ _ hb ha e).1.symm
  by_cases xa : ax a
  · have ea := hr.axis a j (j + 1) xa
    by_cases xb : ax b
    · have eb := hr.axis b j (j + 1) xb
      simp [quad, filter4, ← ea, ← eb, n1, allSides] at h
    · have eb : r b j ≠ r b (j + 1) := fun e => by
        rcases (hr.inj _ _ _ _ hb hb e).2 with c | c
        · exact xb c
        · omega
      simp [quad, filter4, ← ea, eb, n1, n2, allSides, revPerhaps, sides, walk] at h
      rcases h with rfl | rfl | rfl
      · exact Or.inl ⟨rfl, fun c => xb c.2⟩
      · exact Or.inr (Or.inl ⟨rfl, xb⟩)
      · exact Or.inr (Or.inr (Or.inl ⟨by rw [ea], fun c => xb c.2⟩))
  · have ea : r a j ≠ r a (j + 1) := fun e => by
      rcases (hr.inj _ _ _ _ ha ha e).2 with c | c
      · exact xa c
      · omega
    by_cases xb : ax b
    · have eb := hr.axis b j (j + 1) xb
      simp [quad, filter4, ← eb, ea, n1, n3, allSides, revPerhaps, sides, walk] at h
      rcases h with rfl | rfl | rfl
      · exact Or.inl ⟨rfl, fun c => xa c.1⟩
      · exact Or.inr (Or.inr (Or.inl ⟨by rw [eb], fun c => xa c.1⟩))
      · exact Or.inr (Or.inr (Or.inr ⟨rfl, xa⟩))
    · have eb : r b j ≠ r b (j + 1) := fun e => by
        rcases (hr.inj _ _ _ _ hb hb e).2 with c | c
        · exact xb c
        · omega
      simp [quad, filter4, ea, eb, n1, n2, n3, n4, allSides, revPerhaps, sides, walk] at h
      rcases h with rfl | rfl | rfl | rfl
      · exact Or.inl ⟨rfl, fun c => xa c.1⟩
      · exact Or.inr (Or.inl ⟨rfl, xb⟩)
      · exact Or.inr (Or.inr (Or.inl ⟨rfl, fun c => xa c.1⟩))
      · exact Or.inr (Or.inr (Or.inr ⟨rfl, xa⟩))

theorem mem_front {r : Nat → Nat → Nat} {p : List Nat} {t : Nat × Nat} (h : t ∈ allSides [(p.map fun i => r i 0).reverse]) :
    ∃ s ∈ sides p, t = (r s.2 0, r s.1 0) := by
  simp only [allSides, List.flatMap_cons, List.flatMap_nil, List.append_nil] at h
  have := (sides_reverse _).mem_iff.mp h
  rw [sides_map, List.map_map, List.mem_map] at this
  obtain ⟨s, hs, rfl⟩ := this
  exact ⟨s, hs, rfl⟩

theorem mem_back {r : Nat → Nat → Nat} {p : List Nat} {m : Nat} {t : Nat × Nat} (h : t ∈ allSides [p.map fun i => r i m]) :
    ∃ s ∈ sides p, t = (r s.1 m, r s.2 m) := by
  simp only [allSides, List.flatMap_cons, List.flatMap_nil, List.append_nil] at h
  rw [sides_map, List.mem_map] at h
  obtain ⟨s, hs, rfl⟩ := h
  exact ⟨s, hs, rfl⟩

/-- a directed side determines its face -/
theorem arc_owner {n : Nat} {ax : Nat → Prop} {r : Nat → Nat → Nat} (hr : Numbering n ax r) {paths : List (List Nat)}
    (hs : Simple paths) (hp : ∀ p ∈ paths, ∀ i ∈ p, i < n) {slices : Nat} {f g : ArcId}
    (hf : f ∈ arcIds paths slices) (hg : g ∈ arcIds paths slices) {t : Nat × Nat}
    (tf : t ∈ allSides (arcFace r slices f)) (tg : t ∈ allSides (arcFace r slices g)) : f = g := by
  have lt1 : ∀ {p s}, p ∈ paths → s ∈ sides p → s.1 < n := fun a b => hp _ a _ (mem_sides b).1
  have lt2 : ∀ {p s}, p ∈ paths → s ∈ sides p → s.2 < n := fun a b => hp _ a _ (mem_sides b).2
  have inj : ∀ {i k j l}, i < n → k < n → r i j = r k l → i = k ∧ (ax i ∨ j = l) := fun a b => hr.inj _ _ _ _ a b
  -- quad and front / back
  have qf : ∀ {j p s q}, j < slices - 1 → p ∈ paths → s ∈ sides p → q ∈ paths →
      t ∈ allSides (arcFace r slices (.quad j p s)) → t ∈ allSides (arcFace r slices (.front q)) → False := by
    intro j p s q hj hpp hss hq t1 t2
    obtain ⟨u, hu, rfl⟩ := mem_front t2
    have a1 := lt1 hpp hss; have a2 := lt2 hpp hss; have b1 := lt1 hq hu; have b2 := lt2 hq hu
    have un := hs.ne hq hu
    rcases mem_quad hr a1 a2 (hs.ne hpp hss) t1 with ⟨e, c⟩ | ⟨e, c⟩ | ⟨e, c⟩ | ⟨e, c⟩ <;>
      obtain ⟨e1, e2⟩ := Prod.mk.inj e
    · exact hs.asymm hq hpp hu hss (inj b1 a2 e2).1 (inj b2 a1 e1).1
    · exact un ((inj b1 a2 e2).1.trans (inj b2 a2 e1).1.symm)
    · have x1 := inj b2 a2 e1; have x2 := inj b1 a1 e2
      rcases x1.2 with y1 | y1
      · rcases x2.2 with y2 | y2
        · exact c ⟨x2.1 ▸ y2, x1.1 ▸ y1⟩
        · omega
      · omega
    · exact un ((inj b1 a1 e2).1.trans (inj b2 a1 e1).1.symm)
  have qb : ∀ {j p s q}, j < slices - 1 → p ∈ paths → s ∈ sides p → q ∈ paths →
      t ∈ allSides (arcFace r slices (.quad j p s)) → t ∈ allSides (arcFace r slices (.back q)) → False := by
    intro j p s q hj hpp hss hq t1 t2
    obtain ⟨u, hu, rfl⟩ := mem_back t2
    have a1 := lt1 hpp hss; have a2 := lt2 hpp hss; have b1 := lt1 hq hu; have b2 := lt2 hq hu
    have un := hs.ne hq hu
    rcases mem_quad hr a1 a2 (hs.ne hpp hss) t1 with ⟨e, c⟩ | ⟨e, c⟩ | ⟨e, c⟩ | ⟨e, c⟩ <;>
      obtain ⟨e1, e2⟩ := Prod.mk.inj e
    · have x1 := inj b1 a1 e1; have x2 := inj b2 a2 e2
      rcases x1.2 with y1 | y1
      · rcases x2.2 with y2 | y2
        · exact c ⟨x1.1 ▸ y1, x2.1 ▸ y2⟩
        · omega
      · omega
    · exact un ((inj b1 a2 e1).1.trans (inj b2 a2 e2).1.symm)
    · exact hs.asymm hq hpp hu hss (inj b1 a2 e1).1 (inj b2 a1 e2).1
    · exact un ((inj b1 a1 e1).1.trans (inj b2 a1 e2).1.symm)
  have fb : ∀ {p q}, p ∈ paths → q ∈ paths →
      t ∈ allSides (arcFace r slices (.front p)) → t ∈ allSides (arcFace r slices (.back q)) → False := by
    intro p q hpp hq t1 t2
    obtain ⟨u, hu, rfl⟩ := mem_front t1
    obtain ⟨v, hv, e⟩ := mem_back t2
    obtain ⟨e1, e2⟩ := Prod.mk.inj e
    exact hs.asymm hpp hq hu hv (inj (lt1 hpp hu) (lt2 hq hv) e2).1 (inj (lt2 hpp hu) (lt1 hq hv) e1).1
  rcases mem_arcIds hf with ⟨j, p, s, rfl, hj, hpp, hss⟩ | ⟨p, rfl, hpp⟩ | ⟨p, rfl, hpp⟩ <;>
  rcases mem_arcIds hg with ⟨j', p', s', rfl, hj', hpp', hss'⟩ | ⟨p', rfl, hpp'⟩ | ⟨p', rfl, hpp'⟩
  · -- two quads
    have a1 := lt1 hpp hss; have a2 := lt2 hpp hss; have b1 := lt1 hpp' hss'; have b2 := lt2 hpp' hss'
    have n1 := hs.ne hpp hss
    have n2 := hs.ne hpp' hss'
    rcases mem_quad hr a1 a2 n1 tf with ⟨rfl, c⟩ | ⟨rfl, c⟩ | ⟨rfl, c⟩ | ⟨rfl, c⟩ <;>
    rcases mem_quad hr b1 b2 n2 tg with ⟨e, c'⟩ | ⟨e, c'⟩ | ⟨e, c'⟩ | ⟨e, c'⟩ <;>
      obtain ⟨e1, e2⟩ := Prod.mk.inj e
    · have x1 := inj a1 b1 e1; have x2 := inj a2 b2 e2
      obtain ⟨rfl, rfl⟩ := hs.succ hpp hpp' hss hss' x1.1
      have : j = j' := by
        rcases x1.2 with y1 | y1
        · rcases x2.2 with y2 | y2
          · exact absurd ⟨y1, y2⟩ c
          · exact y2
        · exact y1
      rw [this]
    · exact absurd ((inj a1 b2 e1).1.trans (inj a2 b2 e2).1.symm) n1
    · exact (hs.asymm hpp hpp' hss hss' (inj a1 b2 e1).1 (inj a2 b1 e2).1).elim
    · exact absurd ((inj a1 b1 e1).1.trans (inj a2 b1 e2).1.symm) n1
    · exact absurd ((inj a2 b1 e1).1.symm.trans (inj a2 b2 e2).1) n2
    · have x1 := inj a2 b2 e1
      obtain ⟨rfl, rfl⟩ := hs.pred hpp hpp' hss hss' x1.1
      rcases x1.2 with y | rfl
      · exact absurd y c
      · rfl
    · exact absurd ((inj a2 b1 e2).1.symm.trans (inj a2 b2 e1).1) n2
    · have x1 := inj a2 b1 e1; have x2 := inj a2 b1 e2
      rcases x1.2 with y | y
      · exact absurd y c
      · rcases x2.2 with z | z
        · exact absurd z c
        · omega
    · exact (hs.asymm hpp hpp' hss hss' (inj a1 b2 e2).1 (inj a2 b1 e1).1).elim
    · exact absurd ((inj a1 b2 e2).1.trans (inj a2 b2 e1).1.symm) n1
    · have x1 := inj a2 b2 e1; have x2 := inj a1 b1 e2
      obtain ⟨rfl, rfl⟩ := hs.succ hpp hpp' hss hss' x2.1
      have : j = j' := by
        rcases x1.2 with y1 | y1
        · rcases x2.2 with y2 | y2
          · exact absurd ⟨y2, y1⟩ c
          · omega
        · omega
      rw [this]
    · exact absurd ((inj a1 b1 e2).1.trans (inj a2 b1 e1).1.symm) n1
    · exact absurd ((inj a1 b1 e1).1.symm.trans (inj a1 b2 e2).1) n2
    · have x1 := inj a1 b2 e1; have x2 := inj a1 b2 e2
      rcases x1.2 with y | y
      · exact absurd y c
      · rcases x2.2 with z | z
        · exact absurd z c
        · omega
    · exact absurd ((inj a1 b1 e2).1.symm.trans (inj a1 b2 e1).1) n2
    · have x1 := inj a1 b1 e2
      obtain ⟨rfl, rfl⟩ := hs.succ hpp hpp' hss hss' x1.1
      rcases x1.2 with y | rfl
      · exact absurd y c
      · rfl
  · exact (qf hj hpp hss hpp' tf tg).elim
  · exact (qb hj hpp hss hpp' tf tg).elim
  · exact (qf hj' hpp' hss' hpp tg tf).elim
  · obtain ⟨u, hu, rfl⟩ := mem_front tf
    obtain ⟨v, hv, e⟩ := mem_front tg
    obtain ⟨e1, e2⟩ := Prod.mk.inj e
    rw [(hs.succ hpp hpp' hu hv (inj (lt1 hpp hu) (lt1 hpp' hv) e2).1).2]
  · exact (fb hpp hpp' tf tg).elim
  · exact (qb hj' hpp' hss' hpp tg tf).elim
  · exact (fb hpp' hpp tg tf).elim
  · obtain ⟨u, hu, rfl⟩ := mem_back tf
    obtain ⟨v, hv, e⟩ := mem_back tg
    obtain ⟨e1, e2⟩ := Prod.mk.inj e
    rw [(hs.succ hpp hpp' hu hv (inj (lt1 hpp hu) (lt1 hpp' hv) e1).1).2]

/-- `filter4` yields different points -/
theorem filter4_nodup (a b c d : Nat) : (filter4 a b c d).Nodup := by
  unfold filter4
  by_cases h1 : a = b <;> by_cases h2 : a = c <;> by_cases h3 : b = c <;> by_cases h4 : a = d <;> by_cases h5 : b = d <;>
    by_cases h6 : c = d <;> simp [h1, h2, h3, h4, h5, h6] <;> grind

theorem arcFace_nodup {n : Nat} {ax : Nat → Prop} {r : Nat → Nat → Nat} (hr : Numbering n ax r) {paths : List (List Nat)}
    (hs : Simple paths) (hp : ∀ p ∈ paths, ∀ i ∈ p, i < n) {slices : Nat} {f : ArcId}
    (hf : f ∈ arcIds paths slices) : ∀ l ∈ arcFace r slices f, 3 ≤ l.length ∧ l.Nodup := by
  have map_nd : ∀ {p}, p ∈ paths → ∀ j, (p.map fun i => r i j).Nodup := by
    intro p hpp j
    exact List.Nodup.map_on (fun a ha b hb e => (hr.inj _ _ _ _ (hp p hpp a ha) (hp p hpp b hb) e).1) (hs.nodup hpp)
  intro l hl
  rcases mem_arcIds hf with ⟨j, p, s, rfl, hj, hpp, hss⟩ | ⟨p, rfl, hpp⟩ | ⟨p, rfl, hpp⟩
  · simp only [arcFace, quad] at hl
    split at hl
    · simp at hl
    · simp only [List.mem_singleton, revPerhaps, Bool.false_eq_true, if_false] at hl
      subst hl
      exact ⟨by omega, filter4_nodup _ _ _ _⟩
  · simp only [arcFace, List.mem_singleton] at hl
    subst hl
    exact ⟨by simpa using hs.2 p hpp, List.nodup_reverse.mpr (map_nd hpp 0)⟩
  · simp only [arcFace, List.mem_singleton] at hl
    subst hl
    exact ⟨by simpa using hs.2 p hpp, map_nd hpp _⟩

theorem arc_nodup {n : Nat} {ax : Nat → Prop} {r : Nat → Nat → Nat} (hr : Numbering n ax r) {paths : List (List Nat)}
    (hs : Simple paths) (hp : ∀ p ∈ paths, ∀ i ∈ p, i < n) (slices : Nat) (R : Bool) :
    (allSides (arcFaces r R paths slices)).Nodup := by
  have h : (allSides (arcFaces r false paths slices)).Nodup := by
    rw [arcFaces_ids, allSides_flatMap, List.nodup_flatMap]
    constructor
    · intro f hf
      have hn := arcFace_nodup hr hs hp hf
      have h1 : ∃ l, arcFace r slices f = [] ∨ arcFace r slices f = [l] := by
        cases f with
        | quad j p s =>
          refine ⟨filter4 (r s.1 j) (r s.2 j) (r s.2 (j + 1)) (r s.1 (j + 1)), ?_⟩
          simp only [arcFace, quad]
          split
          · exact Or.inl rfl
          · exact Or.inr rfl
        | front p => exact ⟨_, Or.inr rfl⟩
        | back p => exact ⟨_, Or.inr rfl⟩
      obtain ⟨l, e | e⟩ := h1
      · rw [e]; exact List.nodup_nil
      · rw [e]
        simp only [allSides, List.flatMap_cons, List.flatMap_nil, List.append_nil]
        exact sides_nodup (hn l (by rw [e]; simp)).2
    · refine List.Pairwise.imp_of_mem ?_ (arcIds_nodup hs slices)
      intro a b ha hb hab
      simp only [Function.onFun]
      intro t h1 h2
      exact hab (arc_owner hr hs hp ha hb h1 h2)
  rw [arcFaces_rev]
  cases R
  · have : revPerhaps false = id := by funext l; rfl
    rw [this, List.map_id]; exact h
  · have : revPerhaps true = List.reverse := by funext l; rfl
    rw [this]; exact nodup_reverse h

theorem arc_proper {n : Nat} {ax : Nat → Prop} {r : Nat → Nat → Nat} (hr : Numbering n ax r) {paths : List (List Nat)}
    (hs : Simple paths) (hp : ∀ p ∈ paths, ∀ i ∈ p, i < n) {slices : Nat} (h2 : 2 ≤ slices) (R : Bool) (size : Nat)
    (hlt : ∀ i j, i < n → j < slices → r i j < size) : ProperFaces size (arcFaces r R paths slices) := by
  rw [arcFaces_rev, arcFaces_ids]
  intro l hl
  rw [List.mem_map] at hl
  obtain ⟨l, hl, rfl⟩ := hl
  rw [List.mem_flatMap] at hl
  obtain ⟨f, hf, hl⟩ := hl
  have h1 := arcFace_nodup hr hs hp hf l hl
  have h3 : ∀ x ∈ l, x < size := by
    rcases mem_arcIds hf with ⟨j, p, s, rfl, hj, hpp, hss⟩ | ⟨p, rfl, hpp⟩ | ⟨p, rfl, hpp⟩
    · have m := mem_sides hss
      have n1 := hp p hpp _ m.1
      have n2 := hp p hpp _ m.2
      simp only [arcFace, quad] at hl
      split at hl
      · simp at hl
      · simp only [List.mem_singleton, revPerhaps, Bool.false_eq_true, if_false] at hl
        subst hl
        intro x hx
        rcases filter4_mem hx with rfl | rfl | rfl | rfl
        · exact hlt _ _ n1 (by omega)
        · exact hlt _ _ n2 (by omega)
        · exact hlt _ _ n2 (by omega)
        · exact hlt _ _ n1 (by omega)
    · simp only [arcFace, List.mem_singleton] at hl
      subst hl
      intro x hx
      simp only [List.mem_reverse, List.mem_map] at hx
      obtain ⟨i, hi, rfl⟩ := hx
      exact hlt _ _ (hp p hpp i hi) (by omega)
    · simp only [arcFace, List.mem_singleton] at hl
      subst hl
      intro x hx
      simp only [List.mem_map] at hx
      obtain ⟨i, hi, rfl⟩ := hx
      exact hlt _ _ (hp p hpp i hi) (by omega)
  refine ⟨?_, ?_, ?_⟩
  · cases R <;> simpa [revPerhaps] using h1.1
  · cases R
    · exact h1.2
    · exact List.nodup_reverse.mpr h1.2
  · intro x hx
    exact h3 x (mem_revPerhaps.mp hx)

theorem vnum_numbering (pts : List Side) : Numbering pts.length (fun i => pts[i]? = some .axis) (vnum pts) where
  inj := fun i k j l hi hk h => vnum_inj pts hi hk h
  axis := fun i j l h => by unfold vnum; rw [if_pos h, if_pos h]

end Hob3l.Solid
