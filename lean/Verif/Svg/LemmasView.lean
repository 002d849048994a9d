import Verif.Svg.LemmasShape
import Verif.Svg.ViewModel
import Verif.Svg.ViewSpec

/-!
Lemmas about view boxes.
-/

namespace Hob3l.Svg

variable {K : Type} [Field K] [LinearOrder K] [IsStrictOrderedRing K]

/-- the text does not begin with a unit -/
def NoUnit (s : List Char) : Prop := ∀ c t, s = c :: t → c ≠ '%' ∧ c ≠ 'i' ∧ c ≠ 'm' ∧ c ≠ 'c' ∧ c ≠ 'p'

omit [LinearOrder K] [IsStrictOrderedRing K] in
theorem sUnit_noUnit (perc unit1 : K) (s : List Char) (h : NoUnit s) : sUnit perc unit1 s = (unit1, s) := by
  unfold sUnit
  split
  case h_8 => rfl
  all_goals exact absurd rfl (by first | exact (h _ _ rfl).1 | exact (h _ _ rfl).2.1 | exact (h _ _ rfl).2.2.1 | exact (h _ _ rfl).2.2.2.1 | exact (h _ _ rfl).2.2.2.2)

theorem digit_noUnit {c : Char} (h : isDigit c = true) : c ≠ '%' ∧ c ≠ 'i' ∧ c ≠ 'm' ∧ c ≠ 'c' ∧ c ≠ 'p' := by
  refine ⟨?_, ?_, ?_, ?_, ?_⟩ <;> (rintro rfl; revert h; decide)

theorem noUnit_num (n : Num) (h : n.Ok) (r : List Char) : NoUnit (n.show ++ r) := by
  intro c t e
  obtain ⟨c', t', e', hc⟩ := num_head n h r
  rw [e'] at e; injection e with e1 e2; subst e1
  rcases hc with rfl | rfl | rfl | hd
  · decide
  · decide
  · decide
  · exact digit_noUnit hd

theorem noUnit_ws (w : List Space) (r : List Char) (h : NoUnit r) : NoUnit (showWs w ++ r) := by
  intro c t e
  cases w with
  | nil => exact h c t e
  | cons a w => injection e with e1 e2; rw [← e1]; cases a <;> decide

theorem noUnit_sep (s : Sep) (r : List Char) (h : NoUnit r) : NoUnit (s.show ++ r) := by
  unfold Sep.show
  rw [List.append_assoc, List.append_assoc]
  refine noUnit_ws _ _ ?_
  cases s.comma with
  | false => exact noUnit_ws _ _ h
  | true => intro c t e; injection e with e1 e2; rw [← e1]; decide

theorem noUnit_args (l : List (Sep × Num)) (hok : ∀ a ∈ l, a.2.Ok) (w : List Space) : NoUnit (showArgs l ++ showWs w) := by
  cases l with
  | nil =>
    have := noUnit_ws w [] (by intro c t e; cases e)
    rw [List.append_nil] at this
    exact this
  | cons a l =>
    unfold showArgs
    rw [List.flatMap_cons, List.append_assoc, List.append_assoc]
    exact noUnit_sep _ _ (noUnit_num _ (hok a (List.mem_cons_self ..)) _)

omit [LinearOrder K] [IsStrictOrderedRing K] in
theorem sDim_ok (perc : K) (comma : Bool) (a : Sep × Num) (l : List (Sep × Num)) (w : List Space)
    (hok : ∀ x ∈ a :: l, x.2.Ok) (hsp : Spaced (toks (a :: l))) (hc : comma = false → a.1.comma = false) :
    sDim perc 1 comma (showArgs (a :: l) ++ showWs w) = some (((a.2.val : ℚ) : K), showArgs l ++ showWs w) := by
  obtain ⟨s, n⟩ := a
  have hn : n.Ok := hok _ (List.mem_cons_self ..)
  have hok' : ∀ x ∈ l, x.2.Ok := fun x hx => hok x (List.mem_cons_of_mem _ hx)
  have e : showArgs ((s, n) :: l) ++ showWs w = s.show ++ (n.show ++ (showArgs l ++ showWs w)) := by
    unfold showArgs; rw [List.flatMap_cons]; simp only [List.append_assoc]
  have hs : sSep comma (s.show ++ (n.show ++ (showArgs l ++ showWs w))) = n.show ++ (showArgs l ++ showWs w) := by
    cases comma with
    | true => exact sSep_sep s (num_noSep n hn _)
    | false => exact sSep_sep_false s (hc rfl) (num_noSep n hn _).noWs
  unfold sDim
  rw [e, hs, sDouble_ok false _ n hn (stop_args s n l hsp hok' (follow_ws w)) (sSep_noWs (num_noSep n hn _).noWs)]
  simp only [sUnit_noUnit perc 1 _ (noUnit_args l hok' w), mul_one]

omit [IsStrictOrderedRing K] in
theorem readBox_ok (c : Local K) (b : VBox) (h : b.Ok) (hw : (0 : K) < ((b.w.2.val : ℚ) : K)) (hh : (0 : K) < ((b.h.2.val : ℚ) : K)) :
    readBox c b.show = some (((b.x.2.val : ℚ) : K), ((b.y.2.val : ℚ) : K), ((b.w.2.val : ℚ) : K), ((b.h.2.val : ℚ) : K)) := by
  obtain ⟨x, y, w, h', trail⟩ := b
  obtain ⟨hok, hsp, hc⟩ := h
  have hsp : Spaced (toks [x, y, w, h']) := hsp
  simp only [VBox.args] at hok
  simp only at hw hh hc ⊢
  have hend : sSep false (showWs trail) = [] := by
    have := sSep_ws false trail []
    rw [List.append_nil] at this
    rw [this]; rfl
  have h1 := sDim_ok c.width false x [y, w, h'] trail hok hsp (fun _ => hc)
  have h2 := sDim_ok c.height true y [w, h'] trail (fun a ha => hok a (List.mem_cons_of_mem _ ha)) hsp.tail (fun h => by cases h)
  have h3 := sDim_ok c.width true w [h'] trail (fun a ha => hok a (by simp only [List.mem_cons] at ha ⊢; tauto)) hsp.tail.tail (fun h => by cases h)
  have h4 := sDim_ok c.height true h' [] trail (fun a ha => hok a (by simp only [List.mem_cons] at ha ⊢; tauto)) hsp.tail.tail.tail
    (fun h => by cases h)
  unfold readBox VBox.show VBox.args
  simp only [h1, h2, h3, h4]
  have h5 : showArgs ([] : List (Sep × Num)) ++ showWs trail = showWs trail := rfl
  rw [h5, hend]
  simp [hw, hh]

/-- the aspect ratios agree -/
theorem svgXform_same (eps vx vy vw vh ew eh : K) (pas : List Char) (hw : eps ≤ vw) (hh : eps ≤ vh) (he : 0 < eps)
    (hr : ew * vh = eh * vw) :
    svgXform eps vx vy vw vh ew eh pas = ⟨ew / vw, 0, -(vx * (ew / vw)), 0, ew / vw, -(vy * (ew / vw))⟩ := by
  have hvw : 0 < vw := lt_of_lt_of_le he hw
  have hvh : 0 < vh := lt_of_lt_of_le he hh
  have d1 : kdiv0 eps ew vw = ew / vw := by
    unfold kdiv0; rw [sub_zero, abs_of_pos hvw, if_neg (not_lt.2 hw)]
  have d2 : kdiv0 eps eh vh = ew / vw := by
    unfold kdiv0
    rw [sub_zero, abs_of_pos hvh, if_neg (not_lt.2 hh), div_eq_div_iff hvh.ne' hvw.ne', hr]
  have d3 : ew - vw * (ew / vw) = 0 := by rw [mul_div_cancel₀ _ hvw.ne']; ring
  have d4 : eh - vh * (ew / vw) = 0 := by
    have : vh * (ew / vw) = eh := by rw [mul_div_assoc', mul_comm vh, hr, mul_div_cancel_right₀ _ hvw.ne']
    rw [this]; ring
  unfold svgXform
  simp only [d1, d2, lt_irrefl, decide_false, ite_self, d3, d4, zero_mul, add_zero, zero_sub]

theorem attrDim_outer (a : Attrs) (name : String) (l : Len) (h : Has a name (some l)) (ref dpi : K) :
    attrDim a name ref (96 / dpi) = some (l.outer dpi ref) := by
  unfold attrDim
  rw [h.1]
  show dimEnd ref (96 / dpi) l.show = _
  rw [dimEnd_gen ref (96 / dpi) l (h.2 l rfl)]
  unfold Len.outer
  cases l.unit <;> simp only [Option.some.injEq]
  ring

theorem svgSize_ok (a : Attrs) (name : String) (w0 unit1 w : K) (h : attrDim a name w0 unit1 = some w) (hw : 0 < w) :
    svgSize a name w0 unit1 = (w, true) := by
  unfold svgSize
  rw [h]; simp [hw]

end Hob3l.Svg
