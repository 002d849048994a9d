import Verif.Tri.SpecFlag
import Verif.Tri.Props

/-!
The sides of the triangles and the edges.
-/

namespace Hob3l.Tri

open Hob3l.Poly (P Vtx Err ass Ins Small Lt Le Started Proper Arranged IsSearch degree NonCrossing)

/-- two triangles with a common directed side overlap -/
theorem overlap {a b c d : P} (h1 : 0 < area2 a b c) (h2 : 0 < area2 a b d) : ∃ p, InTri a b c p ∧ InTri a b d p := by
  obtain ⟨D, hD⟩ : ∃ D : ℚ, D = (area2 a b d : ℤ) := ⟨_, rfl⟩
  have hD0 : 0 < D := by rw [hD]; exact_mod_cast h2
  obtain ⟨α, hα⟩ : ∃ α : ℚ, α = (area2 c b d : ℤ) / D := ⟨_, rfl⟩
  obtain ⟨β, hβ⟩ : ∃ β : ℚ, β = (area2 a c d : ℤ) / D := ⟨_, rfl⟩
  obtain ⟨γ, hγ⟩ : ∃ γ : ℚ, γ = (area2 a b c : ℤ) / D := ⟨_, rfl⟩
  have hγ0 : 0 < γ := by rw [hγ]; exact div_pos (by exact_mod_cast h1) hD0
  have hα' : α * D = (area2 c b d : ℤ) := by rw [hα, div_mul_cancel₀ _ hD0.ne']
  have hβ' : β * D = (area2 a c d : ℤ) := by rw [hβ, div_mul_cancel₀ _ hD0.ne']
  have hγ' : γ * D = (area2 a b c : ℤ) := by rw [hγ, div_mul_cancel₀ _ hD0.ne']
  have hsum : α + β + γ = 1 := by
    apply mul_right_cancel₀ hD0.ne'
    rw [add_mul, add_mul, hα', hβ', hγ', hD]
    unfold area2; push_cast; ring
  have e1 : (c.1 : ℚ) = α * a.1 + β * b.1 + γ * d.1 := by
    apply mul_right_cancel₀ hD0.ne'
    have : (α * a.1 + β * b.1 + γ * d.1) * D = α * D * a.1 + β * D * b.1 + γ * D * d.1 := by ring
    rw [this, hα', hβ', hγ', hD]
    unfold area2; push_cast; ring
  have e2 : (c.2 : ℚ) = α * a.2 + β * b.2 + γ * d.2 := by
    apply mul_right_cancel₀ hD0.ne'
    have : (α * a.2 + β * b.2 + γ * d.2) * D = α * D * a.2 + β * D * b.2 + γ * D * d.2 := by ring
    rw [this, hα', hβ', hγ', hD]
    unfold area2; push_cast; ring
  obtain ⟨M, hM⟩ : ∃ M : ℚ, M = 2 + 2 * |α| + 2 * |β| := ⟨_, rfl⟩
  have a1 := neg_abs_le α
  have a2 := neg_abs_le β
  have a3 := abs_nonneg α
  have a4 := abs_nonneg β
  have hM0 : 0 < M := by linarith
  obtain ⟨w, hw⟩ : ∃ w : ℚ, w = 1 / M := ⟨_, rfl⟩
  have hw0 : 0 < w := by rw [hw]; exact div_pos one_pos hM0
  have hwM : w * M = 1 := by rw [hw, one_div, inv_mul_cancel₀ hM0.ne']
  have k1 : 0 < (1 - w) / 2 + w * α := by
    rw [hM] at hwM
    nlinarith [mul_nonneg hw0.le a3, mul_nonneg hw0.le a4, mul_le_mul_of_nonneg_left a1 hw0.le]
  have k2 : 0 < (1 - w) / 2 + w * β := by
    rw [hM] at hwM
    nlinarith [mul_nonneg hw0.le a3, mul_nonneg hw0.le a4, mul_le_mul_of_nonneg_left a2 hw0.le]
  have k3 : 0 < (1 - w) / 2 := by
    rw [hM] at hwM
    nlinarith [mul_nonneg hw0.le a3, mul_nonneg hw0.le a4]
  refine ⟨_, ⟨(1 - w) / 2, (1 - w) / 2, w, k3, k3, hw0, by ring, rfl⟩, (1 - w) / 2 + w * α, (1 - w) / 2 + w * β, w * γ, k1, k2,
    mul_pos hw0 hγ0, ?_, ?_⟩
  · have : (1 - w) / 2 + w * α + ((1 - w) / 2 + w * β) + w * γ = (1 - w) + w * (α + β + γ) := by ring
    rw [this, hsum]; ring
  · refine Prod.ext ?_ ?_
    · show _ * (a.1 : ℚ) + _ * (b.1 : ℚ) + _ * (c.1 : ℚ) = _
      rw [e1]; ring
    · show _ * (a.2 : ℚ) + _ * (b.2 : ℚ) + _ * (c.2 : ℚ) = _
      rw [e2]; ring

theorem inTri_rot {a b c : P} {p : ℚ × ℚ} (h : InTri a b c p) : InTri b c a p := by
  obtain ⟨u, v, w, h1, h2, h3, h4, rfl⟩ := h
  exact ⟨v, w, u, h2, h3, h1, by rw [← h4]; ring, Prod.ext (by ring) (by ring)⟩

theorem area2_rot (a b c : P) : area2 b c a = area2 a b c := by unfold area2; ring

/-- the third corner for a side -/
theorem side_third {pts : List P} {t : Tri} (h : TriOk pts t) {a b : P} (hs : (a, b) ∈ (sidesOf pts t).map Prod.fst) :
    ∃ c, 0 < area2 a b c ∧ ∀ p, InTri a b c p → Inside pts t p := by
  simp only [sidesOf, List.map_cons, List.map_nil, List.mem_cons, List.not_mem_nil, or_false, Prod.mk.injEq] at hs
  have hp := h.2.2.2
  rcases hs with ⟨rfl, rfl⟩ | ⟨rfl, rfl⟩ | ⟨rfl, rfl⟩
  · exact ⟨_, hp, fun p hp => hp⟩
  · exact ⟨_, by rw [area2_rot]; exact hp, fun p hp => inTri_rot (inTri_rot hp)⟩
  · exact ⟨_, by rw [← area2_rot]; exact hp, fun p hp => inTri_rot hp⟩

theorem area2_ne {a b c : P} (h : 0 < area2 a b c) : a ≠ b ∧ b ≠ c ∧ c ≠ a := by
  refine ⟨?_, ?_, ?_⟩ <;> rintro rfl <;> (unfold area2 at h; ring_nf at h; omega)

/-- a directed side is a side of at most one triangle -/
theorem side_count {pts : List P} : ∀ {T : List Tri}, (∀ t ∈ T, TriOk pts t) →
    (T.Pairwise fun t u => ∀ p, ¬ (Inside pts t p ∧ Inside pts u p)) → ∀ x, (allSides pts T).count x ≤ 1
  | [], _, _, x => by simp [allSides]
  | t :: T, h, hd, x => by
    rw [List.pairwise_cons] at hd
    have ih := side_count (fun u hu => h u (by simp [hu])) hd.2 x
    have e : allSides pts (t :: T) = (sidesOf pts t).map Prod.fst ++ allSides pts T := by
      unfold allSides; rw [List.flatMap_cons, List.map_append]
    rw [e, List.count_append]
    have ht := h t (by simp)
    obtain ⟨n1, n2, n3⟩ := area2_ne ht.2.2.2
    have h1 : ((sidesOf pts t).map Prod.fst).count x ≤ 1 := by
      apply List.nodup_iff_count_le_one.1
      simp only [sidesOf, List.map_cons, List.map_nil, List.nodup_cons, List.mem_cons, List.not_mem_nil, or_false, Prod.mk.injEq,
        not_or, not_and, List.nodup_nil, and_true, not_false_eq_true]
      exact ⟨⟨fun hc => absurd hc n1, fun hc => absurd hc.symm n3⟩, fun hc => absurd hc n2⟩
    by_cases hx : x ∈ (sidesOf pts t).map Prod.fst
    · have h2 : (allSides pts T).count x = 0 := by
        rw [List.count_eq_zero]
        intro hc
        unfold allSides at hc
        obtain ⟨y, hy, rfl⟩ := List.mem_map.1 hc
        obtain ⟨u, hu, hy⟩ := List.mem_flatMap.1 hy
        obtain ⟨c, c1, c2⟩ := side_third (a := y.1.1) (b := y.1.2) ht hx
        obtain ⟨d, d1, d2⟩ := side_third (a := y.1.1) (b := y.1.2) (h u (by simp [hu])) (List.mem_map.2 ⟨y, hy, rfl⟩)
        obtain ⟨p, p1, p2⟩ := overlap c1 d1
        exact hd.1 u hu p ⟨c2 p p1, d2 p p2⟩
      omega
    · have h2 : ((sidesOf pts t).map Prod.fst).count x = 0 := List.count_eq_zero.2 hx
      omega

/-- the counting function of a directed line, and of its reverse -/
def orient (x : P × P) (a b : P) : Int := (if (a, b) = x then 1 else 0) - (if (b, a) = x then 1 else 0)

theorem orient_anti (x : P × P) (a b : P) : orient x a b = -orient x b a := by unfold orient; omega

theorem orient_sum (x : P × P) : ∀ es : List (P × P),
    (es.map fun e => orient x e.1 e.2).sum = (es.count x : Int) - (es.count x.swap : Int)
  | [] => by simp
  | e :: es => by
    rw [List.map_cons, List.sum_cons, orient_sum x es, List.count_cons, List.count_cons]
    obtain ⟨a, b⟩ := e
    obtain ⟨c, d⟩ := x
    simp only [orient, Prod.swap_prod_mk, beq_iff_eq, Prod.mk.injEq]
    have : (b = c ∧ a = d) ↔ (a = d ∧ b = c) := and_comm
    simp only [this]
    split <;> split <;> push_cast <;> omega

theorem sides_sum (f : P → P → Int) (pts : List P) : ∀ T : List Tri,
    (T.map (sides f pts)).sum = ((allSides pts T).map fun e => f e.1 e.2).sum
  | [] => rfl
  | t :: T => by
    have e : allSides pts (t :: T) = (sidesOf pts t).map Prod.fst ++ allSides pts T := by
      unfold allSides; rw [List.flatMap_cons, List.map_append]
    rw [e, List.map_cons, List.sum_cons, sides_sum f pts T, List.map_append, List.sum_append]
    simp [sidesOf, sides]
    ring

section
variable {ed : Nat → Bool → P} {l : List Vtx}

/-- edges with the same ends are the same -/
theorem edge_unique (ha : Arranged ed l) {v w : Vtx} (hv : v ∈ l) (hw : w ∈ l)
    (h : EndsOf (ed w.edge) (ed v.edge false) (ed v.edge true)) : v.edge = w.edge := by
  by_contra hne
  have := ha.apart v hv w hw hne (1 / 2) (1 / 2) (by norm_num) (by norm_num) (by norm_num) (by norm_num) (by
    unfold Poly.pointAt
    rcases h with ⟨h1, h2⟩ | ⟨h1, h2⟩ <;> rw [h1, h2] <;> refine Prod.ext ?_ ?_ <;> ring)
  norm_num at this

theorem edges_dir_nodup (hl : Proper l) (ha : Arranged ed l) (dir : Nat → Bool) : (edgesDir ed dir l).Nodup := by
  have h := edges_nodup hl true (fun _ => True)
  have e : (l.filter fun v => v.rigt = true ∧ True) = l.filter fun v => v.rigt := by
    congr 1; funext v; simp
  rw [e] at h
  unfold edgesDir
  rw [List.nodup_map_iff_inj_on (List.Nodup.of_map _ h)]
  intro v hv w hw hvw
  rw [Prod.mk.injEq] at hvw
  have hE : v.edge = w.edge := by
    apply edge_unique ha (List.mem_filter.1 hv).1 (List.mem_filter.1 hw).1
    unfold EndsOf
    cases h1 : dir v.edge <;> cases h2 : dir w.edge <;> rw [h1, h2] at hvw <;> simp at hvw <;> simp [hvw]
  exact List.inj_on_of_nodup_map h hv hw hE

theorem ends_ne (hl : Proper l) (ha : Arranged ed l) {v : Vtx} (hv : v ∈ l) : ed v.edge false ≠ ed v.edge true := by
  have hS := Poly.mem_started hl hv
  obtain ⟨r, hr, e3, e4⟩ := Poly.proper_end hl hS
  obtain ⟨w, hw, e1, e2⟩ := hS
  have q1 : ed v.edge false = w.pos := by rw [← e1, ← e2]; exact ha.ends w hw
  have q2 : ed v.edge true = r.pos := by rw [← e3, ← e4]; exact ha.ends r hr
  rw [q1, q2]
  rcases hl v.edge with h | ⟨a, b, hab, h⟩
  · have : v ∈ l.filter fun x => x.edge = v.edge := by simp [hv]
    rw [h] at this; simp at this
  · have m1 : w ∈ l.filter fun x => x.edge = v.edge := by simp [hw, e1]
    have m2 : r ∈ l.filter fun x => x.edge = v.edge := by simp [hr, e3]
    rw [h] at m1 m2
    simp only [List.mem_cons, List.not_mem_nil, or_false] at m1 m2
    rcases m1 with rfl | rfl
    · rcases m2 with rfl | rfl
      · cases e4
      · exact hab
    · cases e2

/-- not both directions of an edge -/
theorem edges_dir_swap (hl : Proper l) (ha : Arranged ed l) (dir : Nat → Bool) {x : P × P} (h1 : x ∈ edgesDir ed dir l) :
    x.swap ∉ edgesDir ed dir l := by
  intro h2
  obtain ⟨v, hv, rfl⟩ := List.mem_map.1 h1
  obtain ⟨w, hw, hvw⟩ := List.mem_map.1 h2
  rw [Prod.swap_prod_mk, Prod.mk.injEq] at hvw
  have hE : v.edge = w.edge := by
    apply edge_unique ha (List.mem_filter.1 hv).1 (List.mem_filter.1 hw).1
    unfold EndsOf
    cases h1 : dir v.edge <;> cases h2 : dir w.edge <;> rw [h1, h2] at hvw <;> simp at hvw <;> simp [hvw]
  rw [hE] at hvw
  have := ends_ne hl ha (List.mem_filter.1 hw).1
  cases h1 : dir w.edge <;> rw [h1] at hvw
  · exact this hvw.1
  · exact this hvw.1.symm

theorem mem_edges_dir (hl : Proper l) (dir : Nat → Bool) {a b : P} :
    ((a, b) ∈ edgesDir ed dir l ∨ (b, a) ∈ edgesDir ed dir l) ↔ ∃ v ∈ l, EndsOf (ed v.edge) a b := by
  constructor
  · rintro (h | h)
    all_goals
      obtain ⟨v, hv, h⟩ := List.mem_map.1 h
      rw [Prod.mk.injEq] at h
      refine ⟨v, (List.mem_filter.1 hv).1, ?_⟩
      unfold EndsOf
      cases h1 : dir v.edge <;> rw [h1] at h <;> simp at h <;> simp [h]
  · rintro ⟨v, hv, h⟩
    obtain ⟨r, hr, e3, e4⟩ := Poly.proper_end hl (Poly.mem_started hl hv)
    have hm : (ed v.edge (dir v.edge), ed v.edge (!dir v.edge)) ∈ edgesDir ed dir l := by
      refine List.mem_map.2 ⟨r, List.mem_filter.2 ⟨hr, e4⟩, ?_⟩
      rw [e3]
    unfold EndsOf at h
    cases h1 : dir v.edge <;> rw [h1] at hm <;> simp only [Bool.not_false, Bool.not_true] at hm <;>
      rcases h with ⟨rfl, rfl⟩ | ⟨rfl, rfl⟩ <;> simp [hm]

end

theorem mem_outline {pts : List P} {T : List Tri} {a b : P} (hT : ∀ t ∈ T, TriOk pts t) :
    (a, b) ∈ outline pts T ↔ ∃ t ∈ T, ∃ i j, Flagged t i j ∧ pts[i]? = some a ∧ pts[j]? = some b := by
  have hat : ∀ {i : Nat} {a : P}, i < pts.length → (at' pts i = a ↔ pts[i]? = some a) := by
    intro i a hi
    unfold at'
    rw [List.getElem?_eq_getElem hi]
    simp
  unfold outline
  simp only [List.mem_map, List.mem_filter, List.mem_flatMap]
  constructor
  · rintro ⟨x, ⟨⟨t, ht, hx⟩, hf⟩, hab⟩
    obtain ⟨h1, h2, h3, -⟩ := hT t ht
    simp only [sidesOf, List.mem_cons, List.not_mem_nil, or_false] at hx
    rcases hx with rfl | rfl | rfl <;> simp only [Prod.mk.injEq] at hab <;> obtain ⟨e1, e2⟩ := hab
    · exact ⟨t, ht, _, _, .inl ⟨hf, rfl, rfl⟩, (hat h1).1 e1, (hat h2).1 e2⟩
    · exact ⟨t, ht, _, _, .inr (.inl ⟨hf, rfl, rfl⟩), (hat h2).1 e1, (hat h3).1 e2⟩
    · exact ⟨t, ht, _, _, .inr (.inr ⟨hf, rfl, rfl⟩), (hat h3).1 e1, (hat h1).1 e2⟩
  · rintro ⟨t, ht, i, j, hf, e1, e2⟩
    obtain ⟨h1, h2, h3, -⟩ := hT t ht
    rcases hf with ⟨hf, rfl, rfl⟩ | ⟨hf, rfl, rfl⟩ | ⟨hf, rfl, rfl⟩
    · exact ⟨_, ⟨⟨t, ht, List.mem_cons_self⟩, hf⟩, by simp [(hat h1).2 e1, (hat h2).2 e2]⟩
    · exact ⟨_, ⟨⟨t, ht, List.mem_cons_of_mem _ List.mem_cons_self⟩, hf⟩, by simp [(hat h2).2 e1, (hat h3).2 e2]⟩
    · exact ⟨_, ⟨⟨t, ht, List.mem_cons_of_mem _ (List.mem_cons_of_mem _ List.mem_cons_self)⟩, hf⟩,
        by simp [(hat h3).2 e1, (hat h1).2 e2]⟩

/-- the sides that are not flagged -/
def innerSides (pts : List P) (T : List Tri) : List (P × P) := ((T.flatMap (sidesOf pts)).filter fun x => !x.2).map Prod.fst

theorem count_split (pts : List P) (T : List Tri) (x : P × P) :
    (allSides pts T).count x = (outline pts T).count x + (innerSides pts T).count x := by
  unfold allSides outline innerSides
  generalize T.flatMap (sidesOf pts) = L
  induction L with
  | nil => rfl
  | cons y L ih =>
    rw [List.map_cons, List.count_cons, ih, List.filter_cons, List.filter_cons]
    cases y.2 <;> simp [List.count_cons] <;> omega

end Hob3l.Tri
