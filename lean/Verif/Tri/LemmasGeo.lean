import Verif.Tri.LemmasMir2
import Verif.Poly.LemmasOrder

/-!
The shape of the paths: from both ends, the points go to the right up to the rightmost point, and no triangle can be cut off.
-/

namespace Hob3l.Tri

open Hob3l.Poly (P Vtx Err ass Ins cross3 vec2Cmp treeNext treePrev Small crossI cross3_eq Lt)

theorem lt_trans' {a b c : P} (h1 : Lt a b) (h2 : Lt b c) : Lt a c := by unfold Lt at *; omega

theorem lt_ne {a b : P} (h : Lt a b) : a ≠ b := by rintro rfl; exact Poly.Lt.irrefl h

/-- to the right, or up -/
def Fw (x y : Int) : Prop := 0 < x ∨ (x = 0 ∧ 0 < y)

theorem fw_trans1 {x1 y1 x2 y2 x3 y3 : Int} (h1 : Fw x1 y1) (h2 : Fw x2 y2) (h3 : Fw x3 y3)
    (ha : 0 < x1 * y2 - y1 * x2) (hb : 0 ≤ x2 * y3 - y2 * x3) : 0 < x1 * y3 - y1 * x3 := by
  unfold Fw at *
  have id : x2 * (x1 * y3 - y1 * x3) = x3 * (x1 * y2 - y1 * x2) + x1 * (x2 * y3 - y2 * x3) := by ring
  rcases h2 with h2 | ⟨h2, h2'⟩
  · by_contra hc
    have : x2 * (x1 * y3 - y1 * x3) ≤ 0 := Int.mul_nonpos_of_nonneg_of_nonpos h2.le (not_lt.1 hc)
    rcases h3 with h3 | ⟨h3, h3'⟩
    · have q1 := mul_pos h3 ha
      have q2 : 0 ≤ x1 * (x2 * y3 - y2 * x3) := mul_nonneg (by omega) hb
      omega
    · subst h3
      rcases h1 with h1 | ⟨h1, h1'⟩
      · have := mul_pos h1 h3'
        omega
      · subst h1
        have : 0 < y1 * x2 := mul_pos h1' h2
        omega
  · subst h2
    have hx1 : 0 < x1 := by
      rcases h1 with h1 | ⟨h1, -⟩
      · exact h1
      · subst h1; simp at ha
    have hx3 : x3 = 0 := by
      rcases h3 with h3 | ⟨h3, -⟩
      · exfalso
        have := mul_pos h2' h3
        omega
      · exact h3
    subst hx3
    have : 0 < y3 := by omega
    have := mul_pos hx1 this
    omega

theorem fw_trans2 {x1 y1 x2 y2 x3 y3 : Int} (h1 : Fw x1 y1) (h2 : Fw x2 y2) (h3 : Fw x3 y3)
    (ha : 0 < y1 * x2 - x1 * y2) (hb : 0 ≤ y2 * x3 - x2 * y3) : 0 < y1 * x3 - x1 * y3 := by
  unfold Fw at *
  have id : x2 * (y1 * x3 - x1 * y3) = x3 * (y1 * x2 - x1 * y2) + x1 * (y2 * x3 - x2 * y3) := by ring
  rcases h2 with h2 | ⟨h2, h2'⟩
  · by_contra hc
    have : x2 * (y1 * x3 - x1 * y3) ≤ 0 := Int.mul_nonpos_of_nonneg_of_nonpos h2.le (not_lt.1 hc)
    rcases h3 with h3 | ⟨h3, h3'⟩
    · have q1 := mul_pos h3 ha
      have q2 : 0 ≤ x1 * (y2 * x3 - x2 * y3) := mul_nonneg (by omega) hb
      omega
    · subst h3
      have := mul_pos h2 h3'
      omega
  · subst h2
    exfalso
    rcases h1 with h1 | ⟨h1, h1'⟩
    · have := mul_pos h1 h2'; omega
    · subst h1; simp at ha

/-- if the point `v` sees the piece from `a` to `b` and the path bends away at `b`, then it sees the next piece -/
theorem sees_next {neg : Bool} {v a b c : P} (h1 : Lt a b) (h2 : Lt b c) (h3 : Lt c v) (hs : 0 < cr neg v a b)
    (hr : cr neg a b c ≤ 0) : 0 < cr neg v b c := by
  have f1 : Fw (b.1 - a.1) (b.2 - a.2) := by unfold Fw; unfold Lt at h1; omega
  have f2 : Fw (c.1 - b.1) (c.2 - b.2) := by unfold Fw; unfold Lt at h2; omega
  have f3 : Fw (v.1 - c.1) (v.2 - c.2) := by unfold Fw; unfold Lt at h3; omega
  unfold cr at *
  unfold crossI at *
  cases neg
  · simp only [Bool.false_eq_true, if_false] at *
    have h := fw_trans1 f3 f1 f2 (by
      have e : (v.1 - c.1) * (b.2 - a.2) - (v.2 - c.2) * (b.1 - a.1) =
        ((v.1 - a.1) * (b.2 - a.2) - (v.2 - a.2) * (b.1 - a.1)) - ((a.1 - b.1) * (c.2 - b.2) - (a.2 - b.2) * (c.1 - b.1)) := by ring
      rw [e]; omega) (by
      have e : (b.1 - a.1) * (c.2 - b.2) - (b.2 - a.2) * (c.1 - b.1) = -((a.1 - b.1) * (c.2 - b.2) - (a.2 - b.2) * (c.1 - b.1)) := by
        ring
      rw [e]; omega)
    have e : (v.1 - b.1) * (c.2 - b.2) - (v.2 - b.2) * (c.1 - b.1) = (v.1 - c.1) * (c.2 - b.2) - (v.2 - c.2) * (c.1 - b.1) := by ring
    rw [e]; exact h
  · simp only [if_true] at *
    have h := fw_trans2 f3 f1 f2 (by
      have e : (v.2 - c.2) * (b.1 - a.1) - (v.1 - c.1) * (b.2 - a.2) =
        -((v.1 - a.1) * (b.2 - a.2) - (v.2 - a.2) * (b.1 - a.1)) + ((a.1 - b.1) * (c.2 - b.2) - (a.2 - b.2) * (c.1 - b.1)) := by ring
      rw [e]; omega) (by
      have e : (b.2 - a.2) * (c.1 - b.1) - (b.1 - a.1) * (c.2 - b.2) = ((a.1 - b.1) * (c.2 - b.2) - (a.2 - b.2) * (c.1 - b.1)) := by
        ring
      rw [e]; omega)
    have e : -((v.1 - b.1) * (c.2 - b.2) - (v.2 - b.2) * (c.1 - b.1)) = (v.2 - c.2) * (c.1 - b.1) - (v.1 - c.1) * (c.2 - b.2) := by ring
    rw [e]; exact h

theorem cr_rev (neg : Bool) (a b c : P) : cr (!neg) c b a = cr neg a b c := by
  unfold cr crossI
  cases neg <;> simp <;> ring

/-- no triangle can be cut off -/
def Refl (neg : Bool) (L : List P) : Prop := ∀ X a b c Y, L = X ++ a :: b :: c :: Y → cr neg a b c ≤ 0

theorem Refl.infix {neg : Bool} {L M : List P} (h : Refl neg L) (hm : M <:+: L) : Refl neg M := by
  obtain ⟨U, V, hm⟩ := hm
  rintro X a b c Y rfl
  exact h (U ++ X) a b c (Y ++ V) (by rw [← hm]; simp)

theorem Refl.reverse {neg : Bool} {L : List P} (h : Refl neg L) : Refl (!neg) L.reverse := by
  intro X a b c Y he
  have : L = Y.reverse ++ c :: b :: a :: X.reverse := by
    have := congrArg List.reverse he
    simpa using this
  have := h _ c b a _ this
  rw [cr_rev]; exact this

theorem Refl.cons {neg : Bool} {v : P} {L : List P} (h : Refl neg L) (h1 : ∀ q w M, L = q :: w :: M → cr neg v q w ≤ 0) :
    Refl neg (v :: L) := by
  intro X a b c Y he
  cases X with
  | nil =>
    rw [List.nil_append, List.cons.injEq] at he
    rw [← he.1]; exact h1 b c Y he.2
  | cons x X =>
    rw [List.cons_append, List.cons.injEq] at he
    exact h X a b c Y he.2

/-- one half of a path, from the left end `e0` of an edge with the right end `e1` up to the rightmost point -/
structure Half (neg : Bool) (e0 e1 : P) (L : List P) : Prop where
  up : L.Pairwise Lt
  hd : L.head? = some e0
  sees : ∀ q M, L = e0 :: q :: M → q ≠ e1 → 0 < cr neg e1 e0 q

theorem Half.prefix {neg : Bool} {e0 e1 : P} {L M : List P} (h : Half neg e0 e1 L) (hm : M <+: L) (hne : M ≠ []) : Half neg e0 e1 M := by
  obtain ⟨X, rfl⟩ := hm
  obtain ⟨a, M, rfl⟩ := List.exists_cons_of_ne_nil hne
  refine ⟨(List.pairwise_append.1 h.up).1, by simpa using h.hd, ?_⟩
  intro q N he
  exact h.sees q (N ++ X) (by rw [he]; simp)

theorem fl_up {neg : Bool} {v : P} {vi : Nat} {closed clo : Bool} {B : List Nd} {r : Nd} : ∀ (A : List Nd) (T : List Tri) (R : List Nd),
    Fl neg v vi closed clo (A ++ r :: B) T R → ((A ++ [r]).map Nd.pos).Pairwise Lt → (∀ n ∈ A, Lt n.pos v) →
    (Lt r.pos v ∨ (r.pos = v ∧ A ≠ [])) → Refl neg ((A ++ [r]).map Nd.pos) →
    (∀ q w M, (A ++ [r]).map Nd.pos = q :: w :: M → w ≠ v → 0 < cr neg v q w) →
    ∃ T1 T2, T = T1 ++ T2 ∧ ((r.pos ≠ v ∧ ∃ r', Nd.pi r' = r.pi ∧ Fl neg v vi closed clo (r' :: B) T2 R) ∨
      (r.pos = v ∧ Fl neg v vi closed clo (offs B) T2 R))
  | [], T, R, h, _, _, hr, _, _ => by
    refine ⟨[], T, rfl, .inl ⟨?_, r, rfl, h⟩⟩
    rcases hr with hr | ⟨-, hr⟩
    · exact lt_ne hr
    · exact absurd rfl hr
  | [a], T, R, h, _, hA, hr, _, hs => by
    have h' : Fl neg v vi closed clo (a :: r :: B) T R := h
    cases h' with
    | dup _ _ _ _ _ hw hf => exact ⟨[], T, rfl, .inr ⟨hw, hf⟩⟩
    | tri _ _ _ T _ hc hw hf => exact ⟨[_], T, rfl, .inl ⟨hw, r.off, rfl, hf⟩⟩
    | stop _ _ _ hw hc =>
      have := hs a.pos r.pos [] rfl hw
      omega
  | a :: b :: A, T, R, h, hp, hA, hr, hrf, hs => by
    have h' : Fl neg v vi closed clo (a :: b :: (A ++ r :: B)) T R := h
    have hb := hA b (by simp)
    cases h' with
    | dup _ _ _ _ _ hw hf => exact absurd hw (lt_ne hb)
    | stop _ _ _ hw hc =>
      have := hs a.pos b.pos ((A ++ [r]).map Nd.pos) rfl hw
      omega
    | tri _ _ _ T _ hc hw hf =>
      have hr' : Lt r.pos v ∨ (r.pos = v ∧ b.off :: A ≠ []) := by
        rcases hr with hr | ⟨hr, -⟩
        · exact .inl hr
        · exact .inr ⟨hr, by simp⟩
      have hab : Lt a.pos b.pos := by
        simp only [List.cons_append, List.map_cons, List.pairwise_cons] at hp
        exact hp.1 b.pos (by simp)
      obtain ⟨T1, T2, e, h3⟩ := fl_up (b.off :: A) T R hf (List.pairwise_cons.1 hp).2 (by
          intro n hn
          rcases List.mem_cons.1 hn with rfl | hn
          · exact hb
          · exact hA n (by simp [hn])) hr' (hrf.infix ⟨[a.pos], [], by simp [Nd.off]⟩) (by
          intro q w M he hwv
          have he' : b.pos :: (A ++ [r]).map Nd.pos = q :: w :: M := he
          simp only [List.cons.injEq] at he'
          obtain ⟨rfl, he2⟩ := he'
          have hm : (a :: b :: (A ++ [r])).map Nd.pos = a.pos :: b.pos :: w :: M := by simp [← he2]
          have hp' : (a.pos :: b.pos :: w :: M).Pairwise Lt := by rw [← hm]; exact hp
          simp only [List.pairwise_cons] at hp'
          refine sees_next hab (hp'.2.1 w (by simp)) ?_ hc (hrf [] a.pos b.pos w M hm)
          -- the next point
          have hwm : w ∈ (A ++ [r]).map Nd.pos := by rw [he2]; simp
          obtain ⟨n, hn, rfl⟩ := List.mem_map.1 hwm
          rcases List.mem_append.1 hn with hn | hn
          · exact hA n (by simp [hn])
          · rw [List.mem_singleton] at hn
            subst hn
            rcases hr with hr | ⟨hr, -⟩
            · exact hr
            · exact absurd hr hwv)
      exact ⟨_ :: T1, T2, by rw [e]; rfl, h3⟩

theorem offs_pi (L : List Nd) : (offs L).map Nd.pi = L.map Nd.pi := by cases L <;> rfl

theorem offs_mem {L : List Nd} {n : Nd} (h : n ∈ offs L) : ∃ m ∈ L, m.pi = n.pi := by
  have : n.pi ∈ (offs L).map Nd.pi := List.mem_map_of_mem h
  rw [offs_pi] at this
  obtain ⟨m, hm, e⟩ := List.mem_map.1 this
  exact ⟨m, hm, e⟩

/-- what is left is the end of the path -/
theorem fl_suffix {neg : Bool} {v : P} {vi : Nat} {closed clo : Bool} {L R : List Nd} {T : List Tri}
    (h : Fl neg v vi closed clo L T R) (hL : ∀ n ∈ L, n.pos ≠ v) :
    (R = [] ∧ (L = [] ∨ closed = true)) ∨
    (R ≠ [] ∧ R.map Nd.pi <:+ L.map Nd.pi ∧ ∀ q w M, R = q :: w :: M → cr neg v q.pos w.pos ≤ 0) := by
  induction h with
  | nil => exact .inl ⟨rfl, .inl rfl⟩
  | keep q hc => exact .inr ⟨by simp, List.suffix_refl _, by simp⟩
  | last q hc => exact .inl ⟨rfl, .inr hc⟩
  | dup q w L T R hw hf ih => exact absurd hw (hL w (by simp))
  | stop q w L hw hc =>
    refine .inr ⟨by simp, List.suffix_refl _, ?_⟩
    intro q' w' M he
    simp only [List.cons.injEq] at he
    obtain ⟨rfl, rfl, -⟩ := he
    exact hc
  | tri q w L T R hc hw hf ih =>
    rcases ih (by
      intro n hn
      rcases List.mem_cons.1 hn with rfl | hn
      · exact hw
      · exact hL n (by simp [hn])) with ⟨h1, h2⟩ | ⟨h1, h2, h3⟩
    · refine .inl ⟨h1, ?_⟩
      rcases h2 with h2 | h2
      · cases h2
      · exact .inr h2
    · exact .inr ⟨h1, h2.trans (List.suffix_cons _ _), h3⟩

theorem pi_pos (L : List Nd) : L.map Nd.pos = (L.map Nd.pi).map Prod.fst := by rw [List.map_map]; rfl

theorem suffix_pos {R L : List Nd} (h : R.map Nd.pi <:+ L.map Nd.pi) : R.map Nd.pos <:+ L.map Nd.pos := by
  rw [pi_pos, pi_pos]; exact h.map _

/-- a flush of points to the left, the nearest first -/
theorem fl_down {neg : Bool} {v t0 t1 : P} {vi : Nat} {clo : Bool} {L R : List Nd} {T : List Tri}
    (h : Fl neg v vi false clo L T R) (hne : L ≠ []) (hh : Half (!neg) t0 t1 (L.map Nd.pos).reverse) (hr : Refl neg (L.map Nd.pos))
    (hL : ∀ n ∈ L, Lt n.pos v) (hv : v ≠ t1 → 0 < cr (!neg) t1 t0 v) :
    R ≠ [] ∧ R.map Nd.pi <:+ L.map Nd.pi ∧ Half (!neg) t0 t1 ((R.map Nd.pos).reverse ++ [v]) ∧ Refl neg (v :: R.map Nd.pos) := by
  rcases fl_suffix h (fun n hn => lt_ne (hL n hn)) with ⟨-, h2⟩ | ⟨h1, h2, h3⟩
  · rcases h2 with h2 | h2
    · exact absurd h2 hne
    · cases h2
  · have hs := suffix_pos h2
    have hlt : ∀ q ∈ R.map Nd.pos, Lt q v := by
      intro q hq
      obtain ⟨n, hn, rfl⟩ := List.mem_map.1 (hs.subset hq)
      exact hL n hn
    have hh' := hh.prefix (M := (R.map Nd.pos).reverse) (List.reverse_prefix.2 hs) (by simpa using h1)
    refine ⟨h1, h2, ⟨?_, ?_, ?_⟩, ?_⟩
    · rw [List.pairwise_append]
      exact ⟨hh'.up, by simp, fun a ha b hb => by
        rw [List.mem_singleton] at hb
        rw [hb]; exact hlt a (List.mem_reverse.1 ha)⟩
    · have := hh'.hd
      rw [List.head?_append, this]; rfl
    · intro q M he
      cases hrr : (R.map Nd.pos).reverse with
      | nil => simp at hrr; exact absurd hrr h1
      | cons a N =>
        rw [hrr] at he hh'
        simp only [List.cons_append, List.cons.injEq] at he
        obtain ⟨rfl, he⟩ := he
        cases N with
        | nil =>
          simp only [List.nil_append, List.cons.injEq] at he
          rw [← he.1]; exact hv
        | cons b N =>
          simp only [List.cons_append, List.cons.injEq] at he
          rw [← he.1]; exact hh'.sees b N rfl
    · refine (hr.infix hs.isInfix).cons ?_
      intro q w M he
      cases hR : R with
      | nil => rw [hR] at he; simp at he
      | cons a R' =>
        rw [hR] at he
        cases R' with
        | nil => simp at he
        | cons b R' =>
          simp only [List.map_cons, List.cons.injEq] at he
          rw [← he.1, ← he.2.1]
          exact h3 a b R' hR

theorem pos_of_pi {a b : Nd} (h : a.pi = b.pi) : a.pos = b.pos := congrArg Prod.fst h

/-- the nodes of the second half of a path -/
theorem fl_whole {neg closed : Bool} {v e0 t0 t1 : P} {vi : Nat} {clo : Bool} {A B R : List Nd} {r : Nd} {T : List Tri}
    (h : Fl neg v vi closed clo (A ++ r :: B) T R) (h1 : Half neg e0 v ((A ++ [r]).map Nd.pos))
    (h2 : Half (!neg) t0 t1 ((r :: B).map Nd.pos).reverse) (hr : Refl neg ((A ++ r :: B).map Nd.pos))
    (hv : Lt r.pos v ∨ r.pos = v) (he : Lt e0 v) (ht : Lt t0 v) :
    ∃ L T1 T2, T = T1 ++ T2 ∧ Fl neg v vi closed clo L T2 R ∧ L ≠ [] ∧ Half (!neg) t0 t1 (L.map Nd.pos).reverse ∧
      Refl neg (L.map Nd.pos) ∧ (∀ n ∈ L, Lt n.pos v) ∧ L.map Nd.pi <:+ (A ++ r :: B).map Nd.pi := by
  have hAr : ((A ++ [r]).map Nd.pos) = A.map Nd.pos ++ [r.pos] := by simp
  have hAlt : ∀ n ∈ A, Lt n.pos r.pos := by
    intro n hn
    have := h1.up
    rw [hAr, List.pairwise_append] at this
    exact this.2.2 n.pos (List.mem_map_of_mem hn) r.pos (by simp)
  have hBlt : ∀ n ∈ B, Lt n.pos r.pos := by
    intro n hn
    have := h2.up
    rw [List.map_cons, List.reverse_cons, List.pairwise_append] at this
    exact this.2.2 n.pos (List.mem_reverse.2 (List.mem_map_of_mem hn)) r.pos (by simp)
  have lv : ∀ {n : Nd}, Lt n.pos r.pos → Lt n.pos v := by
    intro n hn
    rcases hv with hv | hv
    · exact lt_trans' hn hv
    · rw [← hv]; exact hn
  obtain ⟨T1, T2, eT, hd⟩ := fl_up A T R h h1.up (fun n hn => lv (hAlt n hn)) (by
      rcases hv with hv | hv
      · exact .inl hv
      · refine .inr ⟨hv, ?_⟩
        rintro rfl
        have := h1.hd
        simp only [List.nil_append, List.map_cons, List.map_nil, List.head?_cons, Option.some.injEq] at this
        rw [← this, hv] at he
        exact Poly.Lt.irrefl he) (hr.infix ⟨[], B.map Nd.pos, by simp⟩) (by
      intro q w M he' hw
      have hq : q = e0 := by
        have := h1.hd
        rw [he'] at this
        simpa using this
      subst hq
      exact h1.sees w M he' hw)
  rcases hd with ⟨hrv, r', hpi, hf⟩ | ⟨hrv, hf⟩
  · have hm : (r' :: B).map Nd.pi = (r :: B).map Nd.pi := by rw [List.map_cons, List.map_cons, hpi]
    have hm' : (r' :: B).map Nd.pos = (r :: B).map Nd.pos := by rw [pi_pos, pi_pos, hm]
    refine ⟨r' :: B, T1, T2, eT, hf, by simp, by rw [hm']; exact h2, ?_, ?_, ?_⟩
    · rw [hm']; exact hr.infix ⟨A.map Nd.pos, [], by simp⟩
    · intro n hn
      rcases List.mem_cons.1 hn with rfl | hn
      · rw [pos_of_pi hpi]
        rcases hv with hv | hv
        · exact hv
        · exact absurd hv hrv
      · exact lv (hBlt n hn)
    · rw [hm, List.map_append]; exact List.suffix_append _ _
  · have hm : (offs B).map Nd.pos = B.map Nd.pos := by rw [pi_pos, offs_pi, ← pi_pos]
    have hB : B ≠ [] := by
      rintro rfl
      have := h2.hd
      simp only [List.map_cons, List.map_nil, List.reverse_cons, List.reverse_nil, List.nil_append, List.head?_cons,
        Option.some.injEq] at this
      rw [← this, hrv] at ht
      exact Poly.Lt.irrefl ht
    have hB' : offs B ≠ [] := by cases B with
      | nil => exact absurd rfl hB
      | cons a B => simp [offs]
    refine ⟨offs B, T1, T2, eT, hf, hB', ?_, ?_, ?_, ?_⟩
    · rw [hm]
      refine h2.prefix ?_ (by simpa using hB)
      rw [List.map_cons, List.reverse_cons]
      exact List.prefix_append _ _
    · rw [hm]; exact hr.infix ⟨(A ++ [r]).map Nd.pos, [], by simp⟩
    · intro n hn
      obtain ⟨m, hm, e⟩ := offs_mem hn
      rw [← pos_of_pi e]
      exact lv (hBlt m hm)
    · rw [offs_pi, List.map_append, List.map_cons]
      exact ⟨A.map Nd.pi ++ [r.pi], by simp⟩

/-- a flush of a whole path -/
theorem fl_open {neg : Bool} {v e0 t0 t1 : P} {vi : Nat} {clo : Bool} {A B R : List Nd} {r : Nd} {T : List Tri}
    (h : Fl neg v vi false clo (A ++ r :: B) T R) (h1 : Half neg e0 v ((A ++ [r]).map Nd.pos))
    (h2 : Half (!neg) t0 t1 ((r :: B).map Nd.pos).reverse) (hr : Refl neg ((A ++ r :: B).map Nd.pos))
    (hv : Lt r.pos v ∨ r.pos = v) (he : Lt e0 v) (ht : Lt t0 v) (hs : v ≠ t1 → 0 < cr (!neg) t1 t0 v) :
    R ≠ [] ∧ R.map Nd.pi <:+ (A ++ r :: B).map Nd.pi ∧ Half (!neg) t0 t1 ((R.map Nd.pos).reverse ++ [v]) ∧
      Refl neg (v :: R.map Nd.pos) := by
  obtain ⟨L, T1, T2, -, hf, h3, h4, h5, h6, h7⟩ := fl_whole h h1 h2 hr hv he ht
  obtain ⟨g1, g2, g3⟩ := fl_down hf h3 h4 h5 h6 hs
  exact ⟨g1, g2.trans h7, g3⟩

/-- all points are used -/
theorem fl_all {neg : Bool} {v e0 : P} {vi : Nat} {clo : Bool} {L R : List Nd} {T : List Tri}
    (h : Fl neg v vi true clo L T R) (h1 : L ≠ [] → Half neg e0 v (L.map Nd.pos)) (hr : Refl neg (L.map Nd.pos))
    (hL : ∀ n ∈ L, Lt n.pos v) : R = [] := by
  rcases List.eq_nil_or_concat L with rfl | ⟨A, r, rfl⟩
  · exact (fl_nil h rfl).2
  have h1 := h1 (by simp)
  rw [List.concat_eq_append] at *
  obtain ⟨T1, T2, -, hd⟩ := fl_up A T R h h1.up (fun n hn => hL n (by simp [hn])) (.inl (hL r (by simp))) hr (by
    intro q w M he' hw
    have hq : q = e0 := by
      have := h1.hd
      rw [he'] at this
      simpa using this
    subst hq
    exact h1.sees w M he' hw)
  rcases hd with ⟨-, r', -, hf⟩ | ⟨hrv, -⟩
  · cases hf with
    | keep _ hc => cases hc
    | last _ _ => rfl
  · exact absurd hrv (lt_ne (hL r (by simp)))

/-- the two flushes at the end of a path: the first one -/
theorem fl_closed {neg : Bool} {v e0 t0 : P} {vi : Nat} {clo : Bool} {A B R : List Nd} {r : Nd} {T : List Tri}
    (h : Fl neg v vi true clo (A ++ r :: B) T R) (h1 : Half neg e0 v ((A ++ [r]).map Nd.pos))
    (h2 : Half (!neg) t0 v ((r :: B).map Nd.pos).reverse) (hr : Refl neg ((A ++ r :: B).map Nd.pos))
    (hv : Lt r.pos v ∨ r.pos = v) (he : Lt e0 v) (ht : Lt t0 v) :
    (R ≠ [] → Half (!neg) t0 v (R.map Nd.pos).reverse) ∧ Refl neg (R.map Nd.pos) ∧ (∀ n ∈ R, Lt n.pos v) ∧
      R.map Nd.pi <:+ (A ++ r :: B).map Nd.pi := by
  obtain ⟨L, T1, T2, -, hf, h3, h4, h5, h6, h7⟩ := fl_whole h h1 h2 hr hv he ht
  rcases fl_suffix hf (fun n hn => lt_ne (h6 n hn)) with ⟨g1, -⟩ | ⟨g1, g2, -⟩
  · subst g1
    refine ⟨fun hc => absurd rfl hc, ?_, by simp, List.nil_suffix⟩
    intro X a b c Y hc
    simp at hc
  · have hs := suffix_pos g2
    refine ⟨fun _ => h4.prefix (List.reverse_prefix.2 hs) (by simpa using g1), h5.infix hs.isInfix, ?_, g2.trans h7⟩
    intro n hn
    have : n.pos ∈ L.map Nd.pos := hs.subset (List.mem_map_of_mem hn)
    obtain ⟨m, hm, e⟩ := List.mem_map.1 this
    rw [← e]; exact h6 m hm

end Hob3l.Tri
