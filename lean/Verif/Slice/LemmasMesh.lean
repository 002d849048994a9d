import Verif.Slice.Lemmas
import Mathlib.Data.List.Perm.Basic

namespace Hob3l.Slice

open Hob3l.Matq Hob3l.Sweep

/-! ### sorting -/

theorem bbMin_range (ps : List Vec2) (m : Vec2) (hm : m.InRange) (hp : ∀ p ∈ ps, p.InRange) : (bbMin ps m).InRange := by
  induction ps generalizing m with
  | nil => exact hm
  | cons p ps ih =>
    rw [bbMin]
    apply ih _ _ (fun q hq => hp q (List.mem_cons_of_mem _ hq))
    have := hp p (List.mem_cons_self ..)
    unfold Vec2.InRange at *
    simp only
    refine ⟨?_, ?_⟩ <;> split_ifs <;> omega

theorem bbMin_first (p : Vec2) (ps : List Vec2) (hp : p.InRange) :
    bbMin (p :: ps) ⟨2147483647, 2147483647⟩ = bbMin ps p := by
  rw [bbMin]
  have h1 : p.x < 2147483647 := by unfold Vec2.InRange at hp; omega
  have h2 : p.y < 2147483647 := by unfold Vec2.InRange at hp; omega
  simp only [h1, h2, if_true]

theorem bbMin_le (ps : List Vec2) (m : Vec2) : (bbMin ps m).x ≤ m.x ∧ (bbMin ps m).y ≤ m.y ∧
    ∀ p ∈ ps, (bbMin ps m).x ≤ p.x ∧ (bbMin ps m).y ≤ p.y := by
  induction ps generalizing m with
  | nil => simp [bbMin]
  | cons q ps ih =>
    rw [bbMin]
    obtain ⟨h1, h2, h3⟩ := ih ⟨if q.x < m.x then q.x else m.x, if q.y < m.y then q.y else m.y⟩
    simp only at h1 h2
    generalize bbMin ps _ = r at *
    have e1 : r.x ≤ m.x ∧ r.x ≤ q.x := by split_ifs at h1 <;> omega
    have e2 : r.y ≤ m.y ∧ r.y ≤ q.y := by split_ifs at h2 <;> omega
    refine ⟨e1.1, e2.1, ?_⟩
    intro p hp
    rcases List.mem_cons.mp hp with rfl | hp
    · exact ⟨e1.2, e2.2⟩
    · exact h3 p hp

/-- squared distance -/
def sqr (p o : Vec2) : Int := (p.x - o.x) * (p.x - o.x) + (p.y - o.y) * (p.y - o.y)

theorem keyed_spec (o : Vec2) (ho : o.InRange) (ps : List Vec2) (hp : ∀ p ∈ ps, p.InRange) :
    keyed o ps = some (ps.map fun p => (sqr p o, p)) := by
  induction ps with
  | nil => rfl
  | cons p ps ih =>
    have h1 := sqrDist_some (hp p (List.mem_cons_self ..)) ho
    rw [keyed]
    simp only [h1, ih (fun q hq => hp q (List.mem_cons_of_mem _ hq)), Option.bind_eq_bind, Option.bind_some, Option.pure_def,
      List.map_cons, sqr]

theorem sortTail_spec (qs : QSort) (hq : qs.Ok) (pre tail : List Vec2) (h0 : tail ≠ []) (hp : ∀ p ∈ tail, p.InRange) :
    ∃ t, sortTail qs pre tail = some (pre ++ t) ∧ t.Perm tail ∧
      ∃ o : Vec2, t.Pairwise (fun p q => sqr p o ≤ sqr q o) := by
  obtain ⟨p, ps, rfl⟩ := List.exists_cons_of_ne_nil h0
  have hr : (bbMin (p :: ps) ⟨2147483647, 2147483647⟩).InRange := by
    rw [bbMin_first p ps (hp p (List.mem_cons_self ..))]
    exact bbMin_range _ _ (hp p (List.mem_cons_self ..)) (fun q hq => hp q (List.mem_cons_of_mem _ hq))
  generalize ho : bbMin (p :: ps) ⟨2147483647, 2147483647⟩ = o at hr
  have hk := keyed_spec o hr (p :: ps) hp
  obtain ⟨h1, h2⟩ := hq ((p :: ps).map fun p => (sqr p o, p))
  refine ⟨(qs.run ((p :: ps).map fun p => (sqr p o, p))).map Prod.snd, ?_, ?_, o, ?_⟩
  · unfold sortTail
    simp only [ho, hk, Option.bind_eq_bind, Option.bind_some, Option.pure_def]
  · have := h1.map Prod.snd
    rw [List.map_map] at this
    simpa [Function.comp_def] using this
  · rw [List.pairwise_map]
    have hm : ∀ k ∈ qs.run ((p :: ps).map fun p => (sqr p o, p)), k.1 = sqr k.2 o := by
      intro k hk
      have := h1.mem_iff.mp hk
      simp only [List.mem_map] at this
      obtain ⟨q, -, rfl⟩ := this
      rfl
    refine List.Pairwise.imp_of_mem ?_ h2
    intro a b ha hb hab
    rw [← hm a ha, ← hm b hb]; exact hab

theorem mem_walk {α : Type} {a c : α} {l : List α} {s : α × α} (h : s ∈ walk a l c) :
    s.1 ∈ a :: l ∧ s.2 ∈ l ++ [c] := by
  induction l generalizing a with
  | nil => simp [walk] at h; simp [h]
  | cons b l ih =>
    rw [walk] at h
    rcases List.mem_cons.mp h with rfl | h
    · simp
    · have := ih h; simp at this ⊢; tauto

theorem mem_sides {α : Type} {l : List α} {s : α × α} (h : s ∈ sides l) : s.1 ∈ l ∧ s.2 ∈ l := by
  cases l with
  | nil => simp [sides] at h
  | cons a l =>
    have := mem_walk h
    simp at this ⊢; tauto

theorem cuts_range {z : Int} {face : List Vec3} (hf : ∀ v ∈ face, v.InRange) :
    ∀ p ∈ cuts z (sides face), p.InRange := by
  intro p hp
  simp only [cuts, List.mem_map, List.mem_filter, decide_eq_true_eq] at hp
  obtain ⟨⟨a, b⟩, ⟨hs, hc⟩, rfl⟩ := hp
  obtain ⟨m1, m2⟩ := mem_sides hs
  have ha := hf _ m1
  have hb := hf _ m2
  have := cutPt_bounds (a := a) (b := b) ha hb hc
  unfold Vec3.InRange Coord at *
  unfold Vec2.InRange
  simp only at ha hb
  omega

theorem addFace_spec (qs : QSort) (hq : qs.Ok) (z : Int) (out : List Vec2) (face : List Vec3)
    (hf : ∀ v ∈ face, v.InRange) (h3 : 3 ≤ face.length) (he : out.length % 2 = 0) :
    ∃ t, addFace qs z out face = some (out ++ t) ∧ t.Perm (cuts z (sides face)) ∧
      ∃ o : Vec2, t.Pairwise (fun p q => sqr p o ≤ sqr q o) := by
  unfold addFace
  have hlen : (out ++ cuts z (sides face)).length - out.length = (cuts z (sides face)).length := by
    rw [List.length_append]; omega
  rw [if_neg (by omega)]
  simp only [faceLoop_spec z face hf out, Matq.ass, he, if_true, Option.bind_eq_bind, Option.bind_some, hlen,
    sides_parity, List.take_left, List.drop_left]
  by_cases h0 : cuts z (sides face) = []
  · simp only [h0, List.length_nil, if_true]
    exact ⟨[], rfl, List.Perm.refl _, ⟨0, 0⟩, List.Pairwise.nil⟩
  · rw [if_neg (by simpa using h0)]
    exact sortTail_spec qs hq out _ h0 (cuts_range hf)

theorem addFaces_spec (qs : QSort) (hq : qs.Ok) (z : Int) (faces : List (List Vec3)) (out : List Vec2)
    (hf : ∀ f ∈ faces, ∀ v ∈ f, v.InRange) (he : out.length % 2 = 0) :
    ∃ t, addFaces qs z faces out = some (out ++ t) ∧ t.length % 2 = 0 ∧
      ∀ p, t.count p % 2 = (cuts z (faces.flatMap sides)).count p % 2 := by
  induction faces generalizing out with
  | nil => exact ⟨[], by simp [addFaces], rfl, by simp [cuts]⟩
  | cons f fs ih =>
    have hf1 := hf f (List.mem_cons_self ..)
    have hf2 : ∀ f ∈ fs, ∀ v ∈ f, v.InRange := fun g hg => hf g (List.mem_cons_of_mem _ hg)
    by_cases h3 : 3 ≤ f.length
    · obtain ⟨t, h1, h2, -⟩ := addFace_spec qs hq z out f hf1 h3 he
      have hte : t.length % 2 = 0 := by rw [h2.length_eq]; exact sides_parity z f
      obtain ⟨t', h1', h2', h3'⟩ := ih (out ++ t) hf2 (by rw [List.length_append]; omega)
      refine ⟨t ++ t', ?_, by rw [List.length_append]; omega, ?_⟩
      · rw [addFaces]
        simp only [h1, h1', Option.bind_eq_bind, Option.bind_some, List.append_assoc]
      · intro p
        rw [List.flatMap_cons, cuts_append, List.count_append, List.count_append, h2.count_eq, Nat.add_mod, h3' p,
          ← Nat.add_mod]
    · obtain ⟨t', h1', h2', h3'⟩ := ih out hf2 he
      refine ⟨t', ?_, h2', ?_⟩
      · rw [addFaces]
        simp only [addFace, if_pos (show f.length < 3 by omega), h1', Option.bind_eq_bind, Option.bind_some]
      · intro p
        rw [List.flatMap_cons, cuts_append, List.count_append, h3' p]
        have : (cuts z (sides f)).count p % 2 = 0 := by
          match f, h3 with
          | [], _ => simp [sides, cuts]
          | [a], _ =>
            have : ¬ Crosses z (a, a) := by unfold Crosses; simp only; omega
            simp [sides, walk, cuts, this]
          | [a, b], _ =>
            by_cases hc : Crosses z (a, b)
            · have hc' := crosses_swap.mpr hc
              have := cutPt_swap (z := z) hc.ne
              simp only at this
              simp only [sides, walk, cuts, List.filter_cons, hc, hc', decide_true, if_true, List.filter_nil, List.map_cons,
                List.map_nil, this, List.count_cons, List.count_nil]
              omega
            · have hc' : ¬ Crosses z (b, a) := fun h => hc (crosses_swap.mp h)
              simp [sides, walk, cuts, hc, hc']
          | a :: b :: c :: l, h => simp at h
        omega

/-! ### lines -/

theorem toLines_spec : ∀ (n : Nat) (out : List Vec2), out.length = 2 * n →
    ∃ L, toLines out = some L ∧ L.flatMap (fun l => [l.1, l.2]) = out := by
  intro n
  induction n with
  | zero =>
    intro out h
    have : out = [] := List.length_eq_zero_iff.mp (by omega)
    subst this
    exact ⟨[], rfl, rfl⟩
  | succ n ih =>
    intro out h
    match out, h with
    | a :: b :: r, h =>
      obtain ⟨L, h1, h2⟩ := ih r (by simp at h; omega)
      refine ⟨(a, b) :: L, ?_, by simp [h2]⟩
      rw [toLines]
      simp only [h1, Option.bind_eq_bind, Option.bind_some, Option.pure_def]

theorem degree_count (p : Vec2) (L : List (Vec2 × Vec2)) :
    degree p L = (L.flatMap (fun l => [l.1, l.2])).count p := by
  induction L with
  | nil => rfl
  | cons l L ih =>
    rw [degree, ih, List.flatMap_cons, List.count_append]
    simp only [List.count_cons, List.count_nil, beq_iff_eq]
    omega

theorem degree_perm (p : Vec2) {L L' : List (Vec2 × Vec2)} (h : L.Perm L') : degree p L = degree p L' := by
  rw [degree_count, degree_count]
  exact (List.Perm.flatMap_right _ h).count_eq p

theorem degree_filter (p : Vec2) (L : List (Vec2 × Vec2)) :
    degree p (L.filter fun l => decide (l.1 ≠ l.2)) % 2 = degree p L % 2 := by
  induction L with
  | nil => rfl
  | cons l L ih =>
    by_cases h : l.1 = l.2
    · rw [List.filter_cons, if_neg (by simp [h]), degree, ih, h]
      split_ifs <;> omega
    · rw [List.filter_cons, if_pos (by simp [h]), degree, degree]
      omega

theorem finiLoop_perm (n : Nat) (r : List (Vec2 × Vec2)) (i : Nat) (hn : r.length ≤ i + n) :
    ∃ R, finiLoop n r i = some R ∧ R.Perm (r.take i ++ (r.drop i).filter fun l => decide (l.1 ≠ l.2)) := by
  induction n generalizing r i with
  | zero =>
    refine ⟨r, by rw [finiLoop, if_neg (by omega)], ?_⟩
    rw [List.take_of_length_le (by omega), List.drop_of_length_le (by omega)]
    simp
  | succ n ih =>
  rw [finiLoop]
  by_cases h : i < r.length
  · rw [dif_pos h]
    by_cases hd : r[i].1 = r[i].2
    · rw [if_pos hd]
      obtain ⟨R, hR, ihp⟩ := ih (r.dropLast.set i (r[r.length - 1]'(by omega))) i (by simp; omega)
      refine ⟨R, hR, ihp.trans ?_⟩
      have hsplit : r = r.take i ++ r[i] :: r.drop (i + 1) := by
        rw [List.getElem_cons_drop, List.take_append_drop]
      generalize hA : r.take i = A at *
      have hAl : A.length = i := by rw [← hA, List.length_take]; omega
      generalize hx : r[i] = x at *
      rcases List.eq_nil_or_concat (r.drop (i + 1)) with hB | ⟨B, l, hB⟩
      · rw [hB] at hsplit
        have hl : r.dropLast = A := by rw [hsplit]; simp
        have : r.dropLast.set i (r[r.length - 1]'(by omega)) = A := by
          rw [hl, List.set_eq_of_length_le (by omega)]
        rw [this]
        have e2 : r.drop i = [x] := by rw [hsplit, List.drop_append_of_le_length (by omega), List.drop_of_length_le (by omega)]; rfl
        rw [e2, List.take_of_length_le (by omega), List.drop_of_length_le (by omega)]
        simp [hd]
      · rw [List.concat_eq_append] at hB
        rw [hB] at hsplit
        have hlast : r[r.length - 1]'(by omega) = l := by
          have : r = (A ++ x :: B) ++ [l] := by rw [hsplit]; simp
          have h2 : r.getLast? = some l := by rw [this, List.getLast?_append]; simp
          rw [List.getLast?_eq_getElem?, List.getElem?_eq_getElem (by omega)] at h2
          exact Option.some.inj h2
        have hl : r.dropLast = A ++ x :: B := by
          have : r = (A ++ x :: B) ++ [l] := by rw [hsplit]; simp
          rw [this, List.dropLast_concat]
        have hset : r.dropLast.set i (r[r.length - 1]'(by omega)) = A ++ l :: B := by
          rw [hl, hlast, List.set_append_right _ _ (by omega), hAl]
          simp
        rw [hset]
        have e1 : (A ++ l :: B).take i = A := by rw [← hAl, List.take_left]
        have e2 : (A ++ l :: B).drop i = l :: B := by rw [← hAl, List.drop_left]
        have e3 : r.drop i = x :: (B ++ [l]) := by rw [hsplit, ← hAl, List.drop_left]
        rw [e1, e2, e3]
        refine List.Perm.append_left _ ?_
        rw [List.filter_cons (x := x), if_neg (by simp [hd])]
        exact (List.perm_append_singleton l B).symm.filter _
    · rw [if_neg hd]
      obtain ⟨R, hR, ihp⟩ := ih r (i + 1) (by omega)
      refine ⟨R, hR, ihp.trans ?_⟩
      have e1 : r.take (i + 1) = r.take i ++ [r[i]] := List.take_succ_eq_append_getElem h
      have e2 : r.drop i = r[i] :: r.drop (i + 1) := List.drop_eq_getElem_cons h
      rw [e1, e2, List.filter_cons, if_pos (by simp [hd]), List.append_assoc]
      exact List.Perm.refl _
  · rw [dif_neg h]
    refine ⟨r, rfl, ?_⟩
    rw [List.take_of_length_le (by omega), List.drop_of_length_le (by omega)]
    simp

/-! ### watertight meshes -/

theorem even_countP {α : Type} [DecidableEq α] (g : α × α → Bool) (hs : ∀ a b, g (a, b) = g (b, a))
    (hd : ∀ a, g (a, a) = false) : ∀ (n : Nat) (S : List (α × α)), S.length = n →
    (∀ a b, a ≠ b → S.countP (fun s => decide (s = (a, b) ∨ s = (b, a))) % 2 = 0) → S.countP g % 2 = 0 := by
  intro n
  induction n using Nat.strong_induction_on with
  | _ n ih =>
    intro S hn h
    match S, hn with
    | [], _ => rfl
    | (a, b) :: S', hn =>
      by_cases hab : a = b
      · subst hab
        rw [List.countP_cons, hd]
        refine ih S'.length (by rw [← hn]; simp) S' rfl ?_
        intro c d hcd
        have := h c d hcd
        rw [List.countP_cons, if_neg] at this
        · exact this
        · simp only [Prod.mk.injEq, decide_eq_true_eq]
          rintro (⟨rfl, rfl⟩ | ⟨rfl, rfl⟩) <;> exact hcd rfl
      · have h1 := h a b hab
        rw [List.countP_cons, if_pos (by simp)] at h1
        have hpos : 0 < S'.countP (fun s => decide (s = (a, b) ∨ s = (b, a))) := by omega
        rw [List.countP_pos_iff] at hpos
        obtain ⟨s, hsm, hsp⟩ := hpos
        rw [decide_eq_true_eq] at hsp
        have hp := List.perm_cons_erase hsm
        generalize S'.erase s = S'' at hp
        have hlen : S''.length < n := by
          have := hp.length_eq; simp only [List.length_cons] at this hn; omega
        have hg : g s = g (a, b) := by
          rcases hsp with rfl | rfl
          · rfl
          · exact hs b a
        have hS : S''.countP g % 2 = 0 := by
          refine ih _ hlen S'' rfl ?_
          intro c d hcd
          have := h c d hcd
          rw [List.countP_cons, hp.countP_eq, List.countP_cons] at this
          have heq : (decide (s = (c, d) ∨ s = (d, c))) = decide ((a, b) = (c, d) ∨ (a, b) = (d, c)) := by
            rcases hsp with rfl | rfl
            · rfl
            · rw [decide_eq_decide]
              simp only [Prod.mk.injEq]
              tauto
          rw [heq] at this
          split_ifs at this <;> omega
        rw [List.countP_cons, hp.countP_eq, List.countP_cons, hg]
        split_ifs <;> omega

theorem count_cuts (z : Int) (S : List (Vec3 × Vec3)) (p : Vec2) :
    (cuts z S).count p = S.countP (fun s => decide (Crosses z s ∧ cutPt z s = p)) := by
  unfold cuts
  rw [List.count_eq_countP, List.countP_map, List.countP_filter]
  apply List.countP_congr
  intro s _
  simp only [Function.comp_apply, beq_iff_eq, Bool.and_eq_true, decide_eq_true_eq]
  tauto

theorem watertight_even (z : Int) (faces : List (List Vec3)) (hw : Watertight faces) (p : Vec2) :
    (cuts z (faces.flatMap sides)).count p % 2 = 0 := by
  rw [count_cuts]
  refine even_countP _ ?_ ?_ _ _ rfl hw
  · intro a b
    rw [decide_eq_decide]
    constructor
    · rintro ⟨h1, h2⟩
      exact ⟨crosses_swap.mpr h1, by rw [cutPt_swap h1.ne]; exact h2⟩
    · rintro ⟨h1, h2⟩
      have h1' := crosses_swap.mp h1
      exact ⟨h1', by rw [← cutPt_swap h1'.ne]; exact h2⟩
  · intro a
    rw [decide_eq_false_iff_not]
    rintro ⟨h, -⟩
    exact h.ne rfl

end Hob3l.Slice
