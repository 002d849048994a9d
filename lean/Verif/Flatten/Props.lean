import Verif.Flatten.Lemmas

/-!
Properties C17, C18, C19: reducing a 2D CSG tree to one polygon (/repo/src/hob3l/csg2-bool.c).
-/

namespace Hob3l.Flatten

open Hob3l.Bitmap

section
variable {P : Type}

/-- end of both entry points: from a list that describes the set `f`, to the final polygon -/
theorem finish_spec (sw : Sweep P) (hsw : sw.Ok) (mode : Mode) (hmode : mode ≠ .vline2) (l : Lazy P) (f : P → Bool)
    (h10 : l.size ≤ 10) (h0 : l.comb.getLsbD 0 = false) (h1 : ∀ g, l.data = [.sweep g] → l.comb.getLsbD 1 = true)
    (hf : ∀ p, eval l p = f p) :
    ∃ l' res, flattenEager sw l mode = some l' ∧ finishSweep l' = some res ∧ ∀ p, Res.has res p = f p := by
  obtain ⟨l', e1, e2, e3, e4, e5, e6⟩ := flattenEager_spec sw hsw l mode h10 h0
  obtain ⟨d, c⟩ := l'
  have e5 := e5 hmode
  match d, e1, e2, e4, e5, e6 with
  | [], e1, _, _, _, e6 =>
    refine ⟨_, none, e1, rfl, fun p => ?_⟩
    rw [← hf, ← e6 p, eval_nil _ rfl e3]; rfl
  | [.sweep g], e1, _, e4, _, e6 =>
    refine ⟨_, some g, e1, rfl, fun p => ?_⟩
    have b1 : c.getLsbD 1 = true := by
      by_cases hl : ∃ g', l.data = [.sweep g']
      · obtain ⟨g', hg⟩ := hl
        exact e4 (fun _ => h1 g' hg) rfl
      · -- the list was swept, so the table was rewritten
        have hs : sweepAll sw l = some ⟨[.sweep g], c⟩ := by
          rw [← e1]
          unfold flattenEager
          match hd : l.data with
          | [] => rw [show flattenEager sw l mode = some l by unfold flattenEager; rw [hd]] at e1
                  rw [Option.some.inj e1] at hd; simp at hd
          | [.sweep g'] => exact absurd ⟨g', hd⟩ hl
          | [.vline2 n g'] => simp [hmode]
          | [.poly n g'] => rfl
          | a :: b :: d => cases a <;> rfl
        have hpos : 1 ≤ l.size := by
          match hd : l.data with
          | [] => rw [show flattenEager sw l mode = some l by unfold flattenEager; rw [hd]] at e1
                  rw [Option.some.inj e1] at hd; simp at hd
          | a :: d => simp [Lazy.size, hd]
        obtain ⟨r', f1, -, -, f4, -⟩ := sweepAll_spec sw hsw l hpos h10 h0
        rw [hs] at f1; cases f1; exact f4 rfl
    show g p = f p
    rw [← hf, ← e6 p, eval_single g (.sweep g) rfl c e3 b1]
  | [.vline2 n g], _, _, _, e5, _ => obtain ⟨g2, hg2⟩ := e5 _ (List.mem_singleton.mpr rfl); cases hg2
  | [.poly n g], _, _, _, e5, _ => obtain ⟨g2, hg2⟩ := e5 _ (List.mem_singleton.mpr rfl); cases hg2
  | a :: b :: d, _, e2, _, _, _ => simp [Lazy.size] at e2

/-- C17 (layer-wise reduction, `cp_csg2_op_flatten_layer`): with the default switch, for every tree, height and limit
`≥ 2`, the reduction succeeds and the resulting polygon contains exactly the points of the tree. -/
theorem C17_flatten_layer (opt : Opt) (hskip : opt.skipEmpty = true) (hopt : 2 ≤ opt.maxSimultaneous)
    (sw : Sweep P) (hsw : sw.Ok) (zi : Nat) (t : Csg P) (ht : t.WF) :
    ∃ res, opFlattenLayer opt sw zi t = some res ∧ ∀ p, Res.has res p = t.has zi p := by
  obtain ⟨l, h1, h2, h3⟩ := flattenRec_spec opt sw hsw hopt zi t ht
  obtain ⟨l', res, e1, e2, e3⟩ := finish_spec sw hsw .tri (by decide) l _ (le_trans h2.size_le (maxSim_le opt)) h2.bit0
    (fun g hg => h2.one hskip (by simp [Lazy.size, hg])) h3
  refine ⟨res, ?_, e3⟩
  unfold opFlattenLayer
  simp only [h1, e1, e2, Option.bind_eq_bind, Option.bind_some]

/-- C17 (2D reduction inside of the front end, `cp_csg2_flatten`): the union of a list of 2D trees. -/
theorem C17_flatten (opt : Opt) (hskip : opt.skipEmpty = true) (hopt : 2 ≤ opt.maxSimultaneous)
    (sw : Sweep P) (hsw : sw.Ok) (mode : Mode) (hmode : mode ≠ .vline2) (ts : Csgs P) (ht : ts.WF) :
    ∃ res, csg2Flatten opt sw ts mode = some res ∧ ∀ p, Res.has res p = ts.hasAny 0 p := by
  cases ts with
  | nil => exact ⟨none, rfl, fun p => by simp [Res.has, Csgs.hasAny]⟩
  | cons x xs =>
    obtain ⟨l, h1, h2, h3⟩ := flattenV_spec opt sw hsw hopt 0 (.cons x xs) ht
    obtain ⟨l', res, e1, e2, e3⟩ := finish_spec sw hsw mode hmode l _ (le_trans h2.size_le (maxSim_le opt)) h2.bit0
      (fun g hg => h2.one hskip (by simp [Lazy.size, hg])) h3
    refine ⟨res, ?_, e3⟩
    unfold csg2Flatten
    simp only [h1, e1, e2, Option.bind_eq_bind, Option.bind_some]

/-- C18: whatever the switch, no assertion fires, no table access is out of range (the model would be `none`), and the
list never holds more operands than the configured limit and than the ten slots of the array. -/
theorem C18_capacity (opt : Opt) (hopt : 2 ≤ opt.maxSimultaneous) (sw : Sweep P) (hsw : sw.Ok) (zi : Nat) (t : Csg P) (ht : t.WF) :
    (∃ l, flattenRec opt sw zi t = some l ∧ l.data.length ≤ opt.maxSimultaneous ∧ l.data.length ≤ 10) ∧
    (opFlattenLayer opt sw zi t).isSome := by
  obtain ⟨l, h1, h2, h3⟩ := flattenRec_spec opt sw hsw hopt zi t ht
  have hs := h2.size_le
  unfold maxSim at hs
  refine ⟨⟨l, h1, by simp only [Lazy.size] at hs; omega, by simp only [Lazy.size] at hs; omega⟩, ?_⟩
  obtain ⟨l', e1, e2, -, -, e5, -⟩ := flattenEager_spec sw hsw l .tri (by omega) h2.bit0
  unfold opFlattenLayer
  simp only [h1, e1, Option.bind_eq_bind, Option.bind_some]
  unfold finishSweep
  match hd : l'.data with
  | [] => rfl
  | [.sweep g] => rfl
  | [.vline2 n g] => exact absurd (e5 (by decide) (.vline2 n g) (by simp [hd])) (by simp)
  | [.poly n g] => exact absurd (e5 (by decide) (.poly n g) (by simp [hd])) (by simp)
  | a :: b :: d => simp [Lazy.size, hd] at e2

/-- C18: combining any two lists within the limit succeeds (the assertion `loop < 2` holds) and gives again a list within
the limit that describes the combined set. -/
theorem C18_combine (opt : Opt) (hopt : 2 ≤ opt.maxSimultaneous) (sw : Sweep P) (hsw : sw.Ok) (op : Op) (r b : Lazy P)
    (hr : r.data.length ≤ min opt.maxSimultaneous 10) (hb : b.data.length ≤ min opt.maxSimultaneous 10)
    (hr0 : r.comb.getLsbD 0 = false) (hb0 : b.comb.getLsbD 0 = false)
    (hr1 : r.data.length = 1 → r.comb.getLsbD 1 = true) (hb1 : b.data.length = 1 → b.comb.getLsbD 1 = true) :
    ∃ l, flattenLazy opt sw r b op = some l ∧ l.data.length ≤ min opt.maxSimultaneous 10 := by
  obtain ⟨l, h1, h2, -⟩ := flattenLazy_spec opt sw hsw hopt op r b ⟨hr, hr0, fun _ => hr1⟩ ⟨hb, hb0, fun _ => hb1⟩
  exact ⟨l, h1, h2.size_le⟩

/-- C18: the limit of two is needed: with a smaller one the first combination stops with a failed assertion. -/
theorem C18_limit_needed (opt : Opt) (h : opt.maxSimultaneous < 2) (sw : Sweep P) (op : Op) (r b : Lazy P) :
    flattenLazy opt sw r b op = none := by
  unfold flattenLazy
  have : ass (2 ≤ opt.maxSimultaneous) = none := by unfold ass; rw [if_neg (by omega)]
  rw [this]; rfl

/-- C19 (what holds): with the switch off, the results agree with the tree for every tree that has no more polygons at
that height than are processed simultaneously.  For larger trees see `C19_wrong`. -/
theorem C19_skip_empty_off_partial (opt : Opt) (hskip : opt.skipEmpty = false) (hopt : 2 ≤ opt.maxSimultaneous)
    (sw : Sweep P) (hsw : sw.Ok) (zi : Nat) (t : Csg P) (ht : t.WF) (hn : t.leaves zi ≤ min opt.maxSimultaneous 10) :
    ∃ res, opFlattenLayer opt sw zi t = some res ∧ ∀ p, Res.has res p = t.has zi p := by
  obtain ⟨l, h1, h2, h3⟩ := flattenRec_spec opt sw hsw hopt zi t ht
  have hp := flattenRec_plain opt sw hskip hopt zi t l hn h1
  obtain ⟨l', res, e1, e2, e3⟩ := finish_spec sw hsw .tri (by decide) l _ (le_trans h2.size_le (maxSim_le opt)) h2.bit0
    (fun g hg => absurd rfl (hp.noSweep (.sweep g) (by simp [hg]) g)) h3
  refine ⟨res, ?_, e3⟩
  unfold opFlattenLayer
  simp only [h1, e1, e2, Option.bind_eq_bind, Option.bind_some]

/-- C19 (what holds, second part): with the switch off, the list built before the last step still describes the tree; only
the last step can go wrong. -/
theorem C19_list_ok (opt : Opt) (hopt : 2 ≤ opt.maxSimultaneous) (sw : Sweep P) (hsw : sw.Ok) (zi : Nat) (t : Csg P) (ht : t.WF) :
    ∃ l, flattenRec opt sw zi t = some l ∧ ∀ p, get l.comb (mask (l.data.map Obj.reg) p) = some (t.has zi p) := by
  obtain ⟨l, h1, h2, h3⟩ := flattenRec_spec opt sw hsw hopt zi t ht
  refine ⟨l, h1, fun p => ?_⟩
  have lm := mask_lt (l.data.map Obj.reg) p
  rw [List.length_map] at lm
  have : 2 ^ l.data.length ≤ 2 ^ 10 := Nat.pow_le_pow_right (by decide) (le_trans h2.size_le (maxSim_le opt))
  rw [get_spec _ _ (by omega)]
  exact congrArg some (h3 p)

/-- a sweep that never reports "empty" -/
def idealSweep : Sweep P := ⟨fun rs t => some fun p => t.getLsbD (mask rs p)⟩

/-- the hypothesis on the sweep can be met for every type of points -/
theorem idealSweep_ok : (idealSweep : Sweep P).Ok := by
  intro rs t _ _ _
  simp [idealSweep]

end

/-! ### A concrete sweep, and the counterexample -/

/-- a sweep over three points that detects empty results, like the code does -/
def sweep3 : Sweep (Fin 3) :=
  ⟨fun rs t => if (List.finRange 3).any (fun p => t.getLsbD (mask rs p)) then some fun p => t.getLsbD (mask rs p) else none⟩

theorem sweep3_ok : sweep3.Ok := by
  intro rs t _ _ _
  unfold sweep3
  by_cases h : (List.finRange 3).any (fun p => t.getLsbD (mask rs p)) = true
  · simp only [h, if_true]; intro p; trivial
  · simp only [h]
    intro p
    by_contra hc
    exact h (List.any_eq_true.mpr ⟨p, List.mem_finRange p, by simpa using hc⟩)

/-- the polygon consisting of point `i` -/
def pt (i : Fin 3) : Csg (Fin 3) := .poly 3 (fun p => p = i)

/-- `difference() { intersection() { A; B; } union() { C; C; } }` with disjoint A, B: the empty set -/
def badTree : Csg (Fin 3) :=
  .sub (.cons (.cut (.cons (.cons (pt 0) .nil) (.cons (.cons (pt 1) .nil) .nil))) .nil) (.cons (pt 2) (.cons (pt 2) .nil))

theorem badTree_wf : badTree.WF := by
  simp [badTree, pt, Csg.WF, Csgs.WF, CsgAdds.WF]

/-- C19 is wrong in general: with two polygons at a time, the switch changes the result of this tree from the
empty set (which is right) to the subtracted polygon C. -/
theorem C19_wrong :
    ∃ (t : Csg (Fin 3)) (sw : Sweep (Fin 3)) (p : Fin 3), t.WF ∧ sw.Ok ∧
      (opFlattenLayer ⟨2, true⟩ sw 0 t).map (fun r => Res.has r p) = some (t.has 0 p) ∧
      (opFlattenLayer ⟨2, false⟩ sw 0 t).map (fun r => Res.has r p) = some (!t.has 0 p) := by
  refine ⟨badTree, sweep3, 2, badTree_wf, sweep3_ok, ?_, ?_⟩ <;> decide +kernel

/-! Concrete cases meeting the hypotheses. -/

example : badTree.leaves 0 = 4 := by decide
/-- the symmetric difference {0,1} xor {1,2} xor {2}, at three at a time, default switch: {0} -/
example : (opFlattenLayer ⟨3, true⟩ sweep3 0
    (.xor (.cons (.cons (pt 0) (.cons (pt 1) .nil)) (.cons (.cons (pt 1) (.cons (pt 2) .nil)) (.cons (.cons (pt 2) .nil) .nil))))).map
      (fun r => (List.finRange 3).map (Res.has r)) = some [true, false, false] := by decide +kernel
/-- a stack with an unvisited layer, a real layer at height 6, asked at height 6 and 5 -/
example : (Csg.stack 5 (.unset 0 (.layer 6 (.cons (pt 1) .nil) .nil))).WF := by
  simp [Csg.WF, Layers.WF, Csgs.WF, pt]
example : (opFlattenLayer ⟨10, true⟩ sweep3 6 (.stack 5 (.unset 0 (.layer 6 (.cons (pt 1) .nil) .nil)))).map
      (fun r => (List.finRange 3).map (Res.has r)) = some [false, true, false] := by decide +kernel

end Hob3l.Flatten
