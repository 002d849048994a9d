import Verif.Tri.LemmasEnd2
import Verif.Poly.LemmasTotal

/-!
What an event changes, in the same form for all cases.
-/

namespace Hob3l.Tri

open Hob3l.Poly (P Vtx Err ass Ins cross3 vec2Cmp treeNext treePrev Small crossI cross3_eq Lt)

/-- the edges of some paths -/
def us (X : List Arm) : List Nat := X.flatMap fun a => ues a.U

theorem us_nil : us [] = [] := rfl
theorem us_cons (a : Arm) (X : List Arm) : us (a :: X) = ues a.U ++ us X := rfl
theorem us_append (X Y : List Arm) : us (X ++ Y) = us X ++ us Y := List.flatMap_append
theorem mem_us {X : List Arm} {e : Nat} : e ∈ us X ↔ ∃ a ∈ X, e ∈ ues a.U := List.mem_flatMap

/-- the edges in `F` start, the paths `X` are replaced by `Y`; `c` is the sum over the edges that end -/
structure Ch (ed : Nat → Bool → P) (s s' : St) (v : P) (F : List Nat) (X Y : List Arm) (c : (P → P → Int) → Int) : Prop where
  ai : ∀ a ∈ Y, AI s' a ∧ AG ed s' v a
  dj : (us Y).Nodup
  own : ∀ e ∈ us Y, e ∈ F ∨ e ∈ us X ∨ (s.new ≤ e ∧ e < s'.new)
  eq : ∀ e, e ∉ F → e ∉ us X → e < s.new → s'.dis e = s.dis e ∧
    s'.ring.nxt e = s.ring.nxt e ∧ s'.ring.prv e = s.ring.prv e ∧ s'.rm e = s.rm e
  old : ∀ e, e < s.new → s'.pos e = s.pos e ∧ s'.inner e = s.inner e ∧ (e ∉ F → s'.back e = s.back e ∧ s'.idx e = s.idx e)
  open' : ∀ e ∈ F, s'.idx e true = none
  new : s.new ≤ s'.new ∧ s'.new ≤ s.new + 2
  points : s'.points = s.points
  last : s'.last = s.last
  inn : ∀ e ∈ us Y, e ∉ F → e ∉ us X → s'.inner e = true
  beg : ∀ e ∈ F, ∃ a ∈ Y, e = a.b ∨ e = a.t
  flag : ∀ T, s'.tris = s.tris ++ T → Snd s (X.flatMap Arm.U) T ∧
    ((∀ a ∈ X, ∀ q ∈ lowP s a ++ highP s a, q ≠ v) → Cmp s (X.flatMap Arm.U) (Y.flatMap Arm.U) T)
  tris : ∃ T, s'.tris = s.tris ++ T ∧ (∀ t ∈ T, TriOk s.points t) ∧
    ∀ f, (∀ a b, f a b = -f b a) → (T.map (sides f s.points)).sum = c f + (X.map (asum f s)).sum - (Y.map (asum f s')).sum

theorem flag_of {s s' : St} {T : List Tri} {Q : List Tri → Prop} (h : s'.tris = s.tris ++ T) (hq : Q T) :
    ∀ T', s'.tris = s.tris ++ T' → Q T' := by
  intro T' h'
  rw [h] at h'
  exact List.append_cancel_left h' ▸ hq

theorem ch_bend_lo {ed : Nat → Bool → P} {s : St} {a : Arm} {v : P} {et fuel : Nat} (h : AI s a) (g : AG ed s v a)
    (he : Ev s v a.b et true false) (hne : et ∉ ues a.U) (hd : s.dis et = fun _ => false)
    (ht1 : a.b ∈ s.tree) (ht2 : et ∉ s.tree) (hx : s.idx a.t true = none) (hsm : ∀ p ∈ s.points, Small p)
    (he1 : ed a.b true = v) (he2 : ed et false = v) (he0 : Lt (ed a.b false) v) (ht0 : Lt (ed a.t false) v)
    (hs : v ≠ ed a.t true → 0 < cr true (ed a.t true) (ed a.t false) v) (hk : a.U.length ≤ fuel) :
    ∃ s' a', bend fuel s ⟨a.b, true, v⟩ ⟨et, false, v⟩ = .ok s' ∧ a'.b = et ∧ a'.t = a.t ∧
      s'.tree = s.tree.map (fun x => if x = a.b then et else x) ∧
      Ch ed s s' v [et] [a] [a'] (fun f => f v (ed a.b false)) := by
  obtain ⟨s', a', T, q1, q2, q3, q4, q5, q6, q7, q8, q9, q10, q11, q12, q13, q14, q15, q16, q17, q18⟩ := bend_lo h g he hne hd ht1 ht2 hx
    (by intro p hp; rw [← pts_arm h.ne1 h.ne2] at hp; exact node_small h.path hsm p hp) he1 he2 he0 ht0 hs hk
  refine ⟨s', a', q1, q4, q5, q8, ?_, ?_, ?_, ?_, ?_, ?_, ?_, q7.points, q7.last, ?_, ?_, ?_, T, q14, q15, ?_⟩
  · simpa using ⟨q2, q3⟩
  · simpa [us] using q2.nodup
  · intro e he
    simp only [us, List.flatMap_cons, List.flatMap_nil, List.append_nil, List.mem_singleton] at he ⊢
    rcases q6 e he with h1 | h1
    · exact .inl h1
    · exact .inr (.inl h1)
  · intro e h1 h2 _
    simp only [us, List.flatMap_cons, List.flatMap_nil, List.append_nil, List.mem_singleton] at h1 h2
    obtain ⟨-, -, w1, -, -, w2⟩ := q7.eq e (by simp [h1, h2])
    exact ⟨w1, w2⟩
  · intro e _
    refine ⟨by rw [q10], by rw [q11], fun hF => ?_⟩
    rw [List.mem_singleton] at hF
    rw [q12, q13]
    unfold upd1 upd
    simp [hF]
  · intro e he
    rw [List.mem_singleton] at he
    rw [q13, he]; simp [upd]
  · rw [q9]; omega
  · intro e he h1 h2
    simp only [us, List.flatMap_cons, List.flatMap_nil, List.append_nil, List.mem_singleton] at he h1 h2
    rcases q6 e he with w | w
    · exact absurd w h1
    · exact absurd w h2
  · intro e he
    rw [List.mem_singleton] at he
    exact ⟨a', by simp, by rw [he]; simp [q4, q5]⟩
  · refine flag_of q14 ⟨by simpa using q17, fun hq => ?_⟩
    simpa using q18 (hq a (by simp))
  · intro f hf
    rw [q16 f hf]; simp

theorem ch_bend_hi {ed : Nat → Bool → P} {s : St} {a : Arm} {v : P} {et fuel : Nat} (h : AI s a) (g : AG ed s v a)
    (he : Ev s v a.t et true false) (hne : et ∉ ues a.U) (hd : s.dis et = fun _ => false)
    (ht1 : a.t ∈ s.tree) (ht2 : et ∉ s.tree) (hx : s.idx a.b true = none) (hsm : ∀ p ∈ s.points, Small p)
    (he1 : ed a.t true = v) (he2 : ed et false = v) (he0 : Lt (ed a.t false) v) (hb0 : Lt (ed a.b false) v)
    (hs : v ≠ ed a.b true → 0 < cr false (ed a.b true) (ed a.b false) v) (hk : a.U.length ≤ fuel) :
    ∃ s' a', bend fuel s ⟨a.t, true, v⟩ ⟨et, false, v⟩ = .ok s' ∧ a'.b = a.b ∧ a'.t = et ∧
      s'.tree = s.tree.map (fun x => if x = a.t then et else x) ∧
      Ch ed s s' v [et] [a] [a'] (fun f => f (ed a.t false) v) := by
  obtain ⟨s', a', T, q1, q2, q3, q4, q5, q6, q7, q8, q9, q10, q11, q12, q13, q14, q15, q16, q17, q18⟩ := bend_hi h g he hne hd ht1 ht2 hx
    (by intro p hp; rw [← pts_arm h.ne1 h.ne2] at hp; exact node_small h.path hsm p hp) he1 he2 he0 hb0 hs hk
  refine ⟨s', a', q1, q4, q5, q8, ?_, ?_, ?_, ?_, ?_, ?_, ?_, q7.points, q7.last, ?_, ?_, ?_, T, q14, q15, ?_⟩
  · simpa using ⟨q2, q3⟩
  · simpa [us] using q2.nodup
  · intro e he
    simp only [us, List.flatMap_cons, List.flatMap_nil, List.append_nil, List.mem_singleton] at he ⊢
    rcases q6 e he with h1 | h1
    · exact .inl h1
    · exact .inr (.inl h1)
  · intro e h1 h2 _
    simp only [us, List.flatMap_cons, List.flatMap_nil, List.append_nil, List.mem_singleton] at h1 h2
    obtain ⟨-, -, w1, -, -, w2⟩ := q7.eq e (by simp [h1, h2])
    exact ⟨w1, w2⟩
  · intro e _
    refine ⟨by rw [q10], by rw [q11], fun hF => ?_⟩
    rw [List.mem_singleton] at hF
    rw [q12, q13]
    unfold upd1 upd
    simp [hF]
  · intro e he
    rw [List.mem_singleton] at he
    rw [q13, he]; simp [upd]
  · rw [q9]; omega
  · intro e he h1 h2
    simp only [us, List.flatMap_cons, List.flatMap_nil, List.append_nil, List.mem_singleton] at he h1 h2
    rcases q6 e he with w | w
    · exact absurd w h1
    · exact absurd w h2
  · intro e he
    rw [List.mem_singleton] at he
    exact ⟨a', by simp, by rw [he]; simp [q4, q5]⟩
  · refine flag_of q14 ⟨by simpa using q17, fun hq => ?_⟩
    simpa using q18 (hq a (by simp))
  · intro f hf
    rw [q16 f hf]; simp

theorem ch_end_proper {ed : Nat → Bool → P} {s : St} {a : Arm} {v : P} {fuel : Nat} (h : AI s a) (g : AG ed s v a)
    (he : Ev s v a.t a.b true true) (hsm : ∀ p ∈ s.points, Small p)
    (he1 : ed a.b true = v) (he2 : ed a.t true = v) (hb0 : Lt (ed a.b false) v) (ht0 : Lt (ed a.t false) v)
    (htr : treeNext s.tree a.b = some a.t) (hm1 : a.t ∈ s.tree) (hm2 : a.b ∈ s.tree) (hk : (ues a.U).length ≤ fuel)
    (hdiff : ed a.b false ≠ ed a.t false) :
    ∃ s', finish fuel s ⟨a.t, true, v⟩ ⟨a.b, true, v⟩ = .ok s' ∧ s'.tree = (s.tree.erase a.t).erase a.b ∧
      Ch ed s s' v [] [a] [] (fun f => f v (ed a.b false) + f (ed a.t false) v) := by
  obtain ⟨s', T, q1, q2, q3, q4, q5, q6, q7⟩ := end_proper (ed := ed) (v := v) (fuel := fuel) h g he.vs he.vt he.ps he.pt he.idx he.nd he.small hsm
    he1 he2 hb0 ht0 htr hm1 hm2 hk
  refine ⟨s', q1, q2.tree, by simp, by simp [us], by simp [us], ?_, ?_, by simp, ?_, q2.points, q2.last, by simp [us], by simp, ?_, T, q3, q4, ?_⟩
  · intro e _ h2 _
    simp only [us, List.flatMap_cons, List.flatMap_nil, List.append_nil] at h2
    exact ⟨q2.dis e h2, q2.nxt e h2, q2.prv e h2, by rw [q2.rm]⟩
  · intro e _
    exact ⟨by rw [q2.pos], by rw [q2.inner], fun _ => ⟨by rw [q2.back], by rw [q2.idx]⟩⟩
  · rw [q2.new]
    show s.new ≤ s.new ∧ s.new ≤ s.new + 2
    omega
  · refine flag_of q3 ⟨by simpa using q6, fun hq => ?_⟩
    simpa using q7 (hq a (by simp)) hdiff
  · intro f hf
    rw [q5 f hf]; simp; ring

theorem ch_end_imp {ed : Nat → Bool → P} {s : St} {a1 a2 : Arm} {v : P} {fuel : Nat} (h1 : AI s a1) (g1 : AG ed s v a1)
    (h2 : AI s a2) (g2 : AG ed s v a2) (hdj : ∀ e ∈ ues a1.U, e ∉ ues a2.U)
    (he : Ev s v a2.b a1.t true true) (ib : s.idx a1.b true = none) (it : s.idx a2.t true = none)
    (hsm : ∀ p ∈ s.points, Small p)
    (he1 : ed a1.t true = v) (he2 : ed a2.b true = v) (lb1 : Lt (ed a1.b false) v) (lt1 : Lt (ed a1.t false) v)
    (lb2 : Lt (ed a2.b false) v) (lt2 : Lt (ed a2.t false) v) (hv1 : Vis ed v a1.b a1.t) (hv2 : Vis ed v a2.b a2.t)
    (hbel : 0 ≤ cr false v (ed a1.t false) (ed a2.b false))
    (htr : treeNext s.tree a1.t = some a2.b) (hm1 : a2.b ∈ s.tree) (hm2 : a1.t ∈ s.tree) (hk1 : a1.U.length ≤ fuel)
    (hk2 : a2.U.length ≤ fuel) :
    ∃ s' a', finish fuel s ⟨a2.b, true, v⟩ ⟨a1.t, true, v⟩ = .ok s' ∧ a'.b = a1.b ∧ a'.t = a2.t ∧
      s'.tree = (s.tree.erase a2.b).erase a1.t ∧
      Ch ed s s' v [] [a1, a2] [a'] (fun f => f v (ed a2.b false) + f (ed a1.t false) v) := by
  obtain ⟨s', a', T, q1, q2, q3, q4, q5, q6, q7, q8, q9, q10, q11, q12, q13, q14, q15, q16, q17, q18⟩ := end_improper (ed := ed) (v := v)
    (fuel := fuel) h1 g1 h2 g2 hdj he.vs he.vt he.ps he.pt he.idx ib it he.nd he.small hsm he1 he2 lb1 lt1 lb2 lt2 hv1 hv2 hbel htr
    hm1 hm2 hk1 hk2
  refine ⟨s', a', q1, q4, q5, q8, ?_, ?_, ?_, ?_, ?_, by simp, ?_, q7.points, q7.last, ?_, by simp, ?_, T, q14, q15, ?_⟩
  · simpa using ⟨q2, q3⟩
  · simpa [us] using q2.nodup
  · intro e he
    simp only [us, List.flatMap_cons, List.flatMap_nil, List.append_nil, List.mem_append] at he ⊢
    exact .inr (.inl (q6 e he))
  · intro e _ h2 _
    simp only [us, List.flatMap_cons, List.flatMap_nil, List.append_nil] at h2
    obtain ⟨-, -, w1, -, -, w2⟩ := q7.eq e h2
    exact ⟨w1, w2⟩
  · intro e _
    exact ⟨by rw [q10], by rw [q11], fun _ => ⟨by rw [q12], by rw [q13]⟩⟩
  · rw [q9]; omega
  · intro e he _ h2
    simp only [us, List.flatMap_cons, List.flatMap_nil, List.append_nil] at he h2
    exact absurd (List.mem_append.mpr (q6 e he)) h2
  · refine flag_of q14 ⟨by simpa using q17, fun hq => ?_⟩
    have := q18 (by
      intro q hm
      rcases List.mem_append.1 hm with hm | hm
      · exact hq a1 (by simp) q hm
      · exact hq a2 (by simp) q hm)
    simpa using this
  · intro f hf
    rw [q16 f hf]; simp; ring

/-- the state at START before the new edges are connected -/
def stI (s : St) (es et : Nat) (T : List Nat) (b : Bool) : St :=
  { s with idx := upd (upd s.idx (es, true) none) (et, true) none
           tree := T
           back := upd1 (upd1 s.back es b) et !b
           ring := Ring.chain (Ring.init (Ring.init s.ring es) et) es et }

theorem stI_nxt {s : St} {es et : Nat} {T : List Nat} {b : Bool} (hne : es ≠ et) (e : Nat) :
    (stI s es et T b).ring.nxt e = if e = et then es else if e = es then et else s.ring.nxt e := by
  show (Ring.chain (Ring.init (Ring.init s.ring es) et) es et).nxt e = _
  rw [chain_nxt, init_prv, if_pos rfl, init_nxt, if_neg hne, init_nxt, if_pos rfl, init_nxt, init_nxt]
  by_cases h1 : e = et
  · rw [if_pos h1, if_pos h1]
  · rw [if_neg h1, if_neg h1, if_neg h1]
    by_cases h2 : e = es
    · rw [if_pos h2, if_pos h2]
    · rw [if_neg h2, if_neg h2, if_neg h2]

theorem stI_prv {s : St} {es et : Nat} {T : List Nat} {b : Bool} (hne : es ≠ et) (e : Nat) :
    (stI s es et T b).ring.prv e = if e = es then et else if e = et then es else s.ring.prv e := by
  show (Ring.chain (Ring.init (Ring.init s.ring es) et) es et).prv e = _
  rw [chain_prv, init_prv, if_pos rfl, init_nxt, if_neg hne, init_nxt, if_pos rfl, init_prv, init_prv]
  by_cases h2 : e = es
  · rw [if_pos h2, if_pos h2]
  · rw [if_neg h2, if_neg h2, if_neg h2]
    by_cases h1 : e = et
    · rw [if_pos h1, if_pos h1]
    · rw [if_neg h1, if_neg h1, if_neg h1]

theorem stI_out {s : St} {es et : Nat} {T : List Nat} {b : Bool} (hne : es ≠ et) : Out s (stI s es et T b) [es, et] := by
  refine ⟨fun e he => ?_, rfl, rfl⟩
  simp only [List.mem_cons, List.not_mem_nil, or_false, not_or] at he
  refine ⟨?_, rfl, rfl, rfl, ?_, ?_, ?_, rfl⟩
  · show upd1 (upd1 s.back es b) et (!b) e = _
    unfold upd1; rw [if_neg he.2, if_neg he.1]
  · show upd (upd s.idx (es, true) none) (et, true) none e = _
    funext c
    unfold upd; simp [he.1, he.2]
  · rw [stI_nxt hne, if_neg he.2, if_neg he.1]
  · rw [stI_prv hne, if_neg he.1, if_neg he.2]

theorem start_pre {s : St} {es et fuel : Nat} {v : P} {ins : Ins} {A B : List Nat} (hT : s.tree = A ++ B) (hne : es ≠ et)
    (hes : es ∉ A ++ B) (het : et ∉ A ++ B) (i1 : ins (A ++ B) ⟨es, false, v⟩ = some A.length)
    (i2 : ins (A ++ es :: B) ⟨et, false, v⟩ = some (A.length + 1)) :
    start ins fuel s ⟨es, false, v⟩ ⟨et, false, v⟩ =
      let b := match A.getLast? with
        | some er => !s.back er
        | none => true
      let st := stI s es et (A ++ es :: et :: B) b
      if b then .ok { st with rm := upd1 (upd1 st.rm es (es, false)) et (et, false) }
      else match A.getLast? with
        | none => .error .other
        | some er => startImproper fuel st er es et (es, false) (et, false) := by
  rw [List.mem_append, not_or] at hes het
  unfold start treeInsert listInit2
  simp only [Bool.not_false, hT, i1]
  rw [ass_ok _ (by simp [hes]), bind_okE, bind_okE]
  have t1 : (A ++ B).take A.length ++ es :: (A ++ B).drop A.length = A ++ es :: B := by simp
  simp only [t1, i2]
  rw [ass_ok _ (by simp [het, hne.symm]), bind_okE, bind_okE]
  have t2 : (A ++ es :: B).take (A.length + 1) ++ et :: (A ++ es :: B).drop (A.length + 1) = A ++ es :: et :: B := by
    have : A ++ es :: B = (A ++ [es]) ++ B := by simp
    rw [this]
    have hlen : A.length + 1 = (A ++ [es]).length := by simp
    rw [hlen, List.take_left, List.drop_left]
    simp
  simp only [t2]
  rw [ass_ok _ (Poly.treeNext_of hes.1), bind_okE]
  have t3 : treePrev (A ++ es :: et :: B) es = A.getLast? := Poly.treePrev_split (by simp [hes, hne]) hes.1
  simp only [t3]
  have t4 : ∀ b : Bool, upd1 (upd1 s.back es b) et (!b) es ≠ upd1 (upd1 s.back es b) et (!b) et := by
    intro b; unfold upd1; rw [if_neg hne, if_pos rfl, if_pos rfl]; cases b <;> simp
  rw [ass_ok _ (t4 _), bind_okE, bind_okE]
  simp only [t3]
  cases A.getLast? with
  | none => rfl
  | some er =>
    simp only
    cases s.back er <;> rfl

theorem single_path {s : St} {es et : Nat} (h1 : s.dis es = fun _ => false) (h2 : s.dis et = fun _ => false) (hj : Jn s es et) :
    Path s [(es, es), (et, et)] := by
  refine ⟨⟨?_, ?_, fun h => absurd rfl h⟩, hj, ⟨?_, ?_, fun h => absurd rfl h⟩⟩ <;> simp [disOf, src, dst, h1, h2]

theorem ch_start_proper {ed : Nat → Bool → P} {s : St} {es et fuel : Nat} {v : P} {ins : Ins} {A B : List Nat} (hT : s.tree = A ++ B)
    (hes : es ∉ A ++ B) (het : et ∉ A ++ B) (i1 : ins (A ++ B) ⟨es, false, v⟩ = some A.length)
    (i2 : ins (A ++ es :: B) ⟨et, false, v⟩ = some (A.length + 1)) (hA : ∀ er, A.getLast? = some er → s.back er = false)
    (he : Ev s v es et false false) (ds : s.dis es = fun _ => false) (dt : s.dis et = fun _ => false)
    (he1 : ed es false = v) (he2 : ed et false = v) :
    ∃ s' a', start ins fuel s ⟨es, false, v⟩ ⟨et, false, v⟩ = .ok s' ∧ a'.b = es ∧ a'.t = et ∧
      s'.tree = A ++ es :: et :: B ∧ Ch ed s s' v [es, et] [] [a'] (fun _ => 0) := by
  have hne := he.ne
  rw [start_pre hT hne hes het i1 i2]
  have hb : (match A.getLast? with
        | some er => !s.back er
        | none => true) = true := by
    cases hq : A.getLast? with
    | none => rfl
    | some er => simp [hA er hq]
  simp only [hb, if_true]
  obtain ⟨s', hs'⟩ : ∃ s' : St, s' = { stI s es et (A ++ es :: et :: B) true with
    rm := upd1 (upd1 (stI s es et (A ++ es :: et :: B) true).rm es (es, false)) et (et, false) } := ⟨_, rfl⟩
  have hbk : s'.back = upd1 (upd1 s.back es true) et false := by rw [hs']; rfl
  have hbs : s'.back es = true := by rw [hbk]; unfold upd1; rw [if_neg hne, if_pos rfl]
  have hbt : s'.back et = false := by rw [hbk]; unfold upd1; rw [if_pos rfl]
  have hix : s'.idx = upd (upd s.idx (es, true) none) (et, true) none := by rw [hs']; rfl
  have hnx : ∀ e, s'.ring.nxt e = if e = et then es else if e = es then et else s.ring.nxt e := by
    intro e; rw [hs']; exact stI_nxt (T := A ++ es :: et :: B) (b := true) hne e
  have hpx : ∀ e, s'.ring.prv e = if e = es then et else if e = et then es else s.ring.prv e := by
    intro e; rw [hs']; exact stI_prv (T := A ++ es :: et :: B) (b := true) hne e
  have hpos : s'.pos = s.pos := by rw [hs']; rfl
  have hpts : s'.points = s.points := by rw [hs']; rfl
  have d1 : dst s' es = (es, false) := by unfold dst; rw [hbs]; rfl
  have d2 : src s' et = (et, false) := by unfold src; rw [hbt]
  have ii1 : s'.idx es false = s.idx es false := by rw [hix]; simp [upd]
  have ii2 : s'.idx et false = s.idx et false := by rw [hix]; simp [upd]
  have hvd : Vd s' (es, false) := by
    obtain ⟨i, k1, k2⟩ := he.vs
    refine ⟨i, ?_, ?_⟩
    · show s'.idx es false = _; rw [ii1]; exact k1
    · rw [hpts]; show _ = some (s'.pos es false); rw [hpos]; exact k2
  have hj : Jn s' es et := by
    refine ⟨?_, ?_, ?_, ?_, ?_⟩
    · rw [hnx, if_neg hne, if_pos rfl]
    · rw [hpx, if_neg hne.symm, if_pos rfl]
    · rw [d1, d2]; show s'.pos es false = s'.pos et false; rw [hpos, he.ps, he.pt]
    · rw [d1, d2]; show s'.idx es false = s'.idx et false; rw [ii1, ii2]; exact he.idx
    · rw [d1]; exact hvd
  have hpk : posOf s' (dst s' es) = v := by rw [d1]; unfold posOf; rw [hpos]; exact he.ps
  have e1 : lowP s' ⟨[(es, es)], [(et, et)]⟩ = [v] := by unfold lowP; simp [hpk]
  have e2 : highP s' ⟨[(es, es)], [(et, et)]⟩ = [] := rfl
  have e3 : pk s' ⟨[(es, es)], [(et, et)]⟩ = v := hpk
  have hu : ues [(es, es), (et, et)] = [es, et] := by simp [ues, ue]
  refine ⟨s', ⟨[(es, es)], [(et, et)]⟩, by rw [hs'], rfl, rfl, by rw [hs']; rfl, ?_, ?_, ?_, ?_, ?_, ?_, ?_, hpts,
    by rw [hs']; rfl, ?_, ?_, ?_, [], by rw [hs']; simp [stI], by simp, ?_⟩
  · intro a ha
    rw [List.mem_singleton] at ha
    subst ha
    refine ⟨⟨by simp, by simp, single_path (by rw [hs']; exact ds) (by rw [hs']; exact dt) hj, ?_, ?_, ?_, ?_, hbs, hbt, rfl, rfl⟩, ?_, ?_, ?_, .inr e3⟩
    · show (ues [(es, es), (et, et)]).Nodup
      rw [hu]; simp [hne]
    · show s'.ring.nxt et = es
      rw [hnx, if_pos rfl]
    · show s'.ring.prv es = et
      rw [hpx, if_pos rfl]
    · show s'.rm es = dst s' es
      rw [d1, hs']
      show upd1 (upd1 _ es (es, false)) et (et, false) es = _
      unfold upd1; rw [if_neg hne, if_pos rfl]
    · show Half false (ed es false) (ed es true) _
      rw [e1, he1]
      exact ⟨by simp, rfl, by simp⟩
    · show Half true (ed et false) (ed et true) _
      rw [e2, e3, he2]
      exact ⟨by simp, rfl, by simp⟩
    · rw [e1, e2]
      intro X a b c Y hc
      have := congrArg List.length hc
      simp at this
      omega
  · show (us [⟨[(es, es)], [(et, et)]⟩]).Nodup
    rw [us_cons, us_nil]
    show (ues [(es, es), (et, et)] ++ []).Nodup
    rw [hu]; simp [hne]
  · intro e he
    rw [us_cons, us_nil] at he
    have he : e ∈ ues [(es, es), (et, et)] ++ [] := he
    rw [hu] at he
    left; simpa using he
  · intro e h1 _ _
    obtain ⟨-, -, w1, -, -, w2, w3, w4⟩ := (stI_out (T := A ++ es :: et :: B) (b := true) hne (s := s)).eq e h1
    rw [hs']
    refine ⟨w1, w2, w3, ?_⟩
    simp only [List.mem_cons, List.not_mem_nil, or_false, not_or] at h1
    show upd1 (upd1 _ es (es, false)) et (et, false) e = _
    unfold upd1; rw [if_neg h1.2, if_neg h1.1]; exact w4
  · intro e _
    refine ⟨by rw [hpos], by rw [hs']; rfl, fun hF => ?_⟩
    obtain ⟨w1, -, -, -, w2, -⟩ := (stI_out (T := A ++ es :: et :: B) (b := true) hne (s := s)).eq e hF
    rw [hs']
    exact ⟨w1, w2⟩
  · intro e he
    simp only [List.mem_cons, List.not_mem_nil, or_false] at he
    rw [hix]
    rcases he with rfl | rfl <;> simp [upd]
  · rw [hs']
    show s.new ≤ s.new ∧ s.new ≤ s.new + 2
    omega
  · intro e he h1
    rw [us_cons, us_nil] at he
    have he : e ∈ ues [(es, es), (et, et)] ++ [] := he
    rw [hu] at he
    exact absurd (by simpa using he) h1
  · intro e he
    simp only [List.mem_cons, List.not_mem_nil, or_false] at he
    exact ⟨_, List.mem_singleton.2 rfl, he⟩
  · refine flag_of (T := []) (by rw [hs']; simp [stI]) ⟨snd_nil _ _, fun _ e he => ?_⟩
    simp at he
  · intro f _
    simp [asum, e1, e2, csum, psum]

theorem ch_start_imp {ed : Nat → Bool → P} {s : St} {es et fuel : Nat} {v : P} {ins : Ins} {A B : List Nat} {a : Arm}
    (hT : s.tree = A ++ [a.b] ++ B)
    (hes : es ∉ A ++ [a.b] ++ B) (het : et ∉ A ++ [a.b] ++ B) (i1 : ins (A ++ [a.b] ++ B) ⟨es, false, v⟩ = some (A ++ [a.b]).length)
    (i2 : ins (A ++ [a.b] ++ es :: B) ⟨et, false, v⟩ = some ((A ++ [a.b]).length + 1))
    (h : AI s a) (g : AG ed s v a) (hus : es ∉ ues a.U) (hut : et ∉ ues a.U)
    (he : Ev s v es et false false) (ds : s.dis es = fun _ => false) (dt : s.dis et = fun _ => false)
    (ib : s.idx a.b true = none) (it : s.idx a.t true = none) (ls : es < s.new) (lt : et < s.new) (lu : ∀ e ∈ ues a.U, e < s.new)
    (he1 : ed es false = v) (he2 : ed et false = v) (hsm : ∀ p ∈ s.points, Small p) (hvis : Vis ed v a.b a.t)
    (hk : a.U.length < fuel) :
    ∃ s' a1 a2, start ins fuel s ⟨es, false, v⟩ ⟨et, false, v⟩ = .ok s' ∧ a1.b = a.b ∧ a1.t = es ∧ a2.b = et ∧ a2.t = a.t ∧
      s'.tree = A ++ [a.b] ++ es :: et :: B ∧ Ch ed s s' v [es, et] [a] [a1, a2] (fun _ => 0) := by
  have hne := he.ne
  rw [start_pre hT hne hes het i1 i2]
  have hl : (A ++ [a.b]).getLast? = some a.b := by simp
  simp only [hl, h.bb, Bool.not_true, Bool.false_eq_true, if_false]
  obtain ⟨st, hst⟩ : ∃ st : St, st = stI s es et (A ++ [a.b] ++ es :: et :: B) false := ⟨_, rfl⟩
  rw [← hst]
  have hout : Out s st [es, et] := by rw [hst]; exact stI_out hne
  have hd : ∀ e ∈ ues a.U, e ∉ [es, et] := by
    intro e hu hc
    simp only [List.mem_cons, List.not_mem_nil, or_false] at hc
    rcases hc with rfl | rfl
    · exact hus hu
    · exact hut hu
  obtain ⟨ai, ag⟩ := hout.arm h g hd
  have hbk : st.back = upd1 (upd1 s.back es false) et true := by rw [hst]; rfl
  have hix : st.idx = upd (upd s.idx (es, true) none) (et, true) none := by rw [hst]; rfl
  have hnx : ∀ e, st.ring.nxt e = if e = et then es else if e = es then et else s.ring.nxt e := by
    intro e; rw [hst]; exact stI_nxt hne e
  have hpx : ∀ e, st.ring.prv e = if e = es then et else if e = et then es else s.ring.prv e := by
    intro e; rw [hst]; exact stI_prv hne e
  have hpos : st.pos = s.pos := by rw [hst]; rfl
  have hpts : st.points = s.points := by rw [hst]; rfl
  have hnew : st.new = s.new := by rw [hst]; rfl
  have ii1 : st.idx es false = s.idx es false := by rw [hix]; simp [upd]
  have ii2 : st.idx et false = s.idx et false := by rw [hix]; simp [upd]
  have him : Im st v a es et := by
    refine ⟨ai, hus, hut, hne, ?_, ?_, ?_, ?_, ?_, ?_, by rw [hst]; exact ds, by rw [hst]; exact dt, ?_, ?_, by rw [hpos]; exact he.ps,
      by rw [hpos]; exact he.pt, by rw [ii1, ii2]; exact he.idx, ?_, ?_, by rw [hnew]; exact ls, by rw [hnew]; exact lt,
      by rw [hnew]; exact lu⟩
    · rw [hbk]; unfold upd1; rw [if_neg hne, if_pos rfl]
    · rw [hbk]; unfold upd1; rw [if_pos rfl]
    · rw [hnx, if_neg hne, if_pos rfl]
    · rw [hnx, if_pos rfl]
    · rw [hpx, if_pos rfl]
    · rw [hpx, if_neg hne.symm, if_pos rfl]
    · obtain ⟨i, k1, k2⟩ := he.vs
      refine ⟨i, ?_, ?_⟩
      · show st.idx es false = _; rw [ii1]; exact k1
      · rw [hpts]; show _ = some (st.pos es false); rw [hpos]; exact k2
    · obtain ⟨i, k1, k2⟩ := he.vt
      refine ⟨i, ?_, ?_⟩
      · show st.idx et false = _; rw [ii2]; exact k1
      · rw [hpts]; show _ = some (st.pos et false); rw [hpos]; exact k2
    · rw [(hout.eq _ (hd _ h.mem_b)).2.2.2.2.1]; exact ib
    · rw [(hout.eq _ (hd _ h.mem_t)).2.2.2.2.1]; exact it
  obtain ⟨s', a1, a2, T, q1, q2, q3, q4, q5, q6, q7, q8, q9, q10, q11, q12, q13, q14, q15, q16, q17, q18, q19⟩ :=
    imp_ok him ag (by rw [hpts]; exact he.nd) (by rw [hpts]; exact hsm) he.small hvis he1 he2 hk
  rw [hpts] at q15 q16
  rw [hnew] at q10 q11
  have hT' : s'.tris = s.tris ++ T := by rw [q14, hst]; rfl
  have hin : st.inner = s.inner := by rw [hst]; rfl
  have hpl : lowP st a ++ highP st a = lowP s a ++ highP s a := by
    rw [← pts_arm h.ne1 h.ne2, ← pts_arm h.ne1 h.ne2, nodes_loc h.path (hout.loc hd)]
  have hasum : ∀ f, asum f st a = asum f s a := by
    intro f
    unfold asum
    rw [← pts_arm h.ne1 h.ne2, ← pts_arm h.ne1 h.ne2, nodes_loc h.path (hout.loc hd)]
  refine ⟨s', a1, a2, q1, q6, q7, q8, q9, by rw [q13.tree, hst]; rfl, ?_, ?_, ?_, ?_, ?_, ?_, by rw [← hnew]; exact q13.new,
    by rw [q13.points, hpts], by rw [q13.last, hst]; rfl, ?_, ?_, ?_, T, hT', q15, ?_⟩
  · simpa using ⟨⟨q2, q3⟩, q4, q5⟩
  · rw [us_cons, us_cons, us_nil, List.append_nil, List.nodup_append]
    exact ⟨q2.nodup, q4.nodup, fun x hx y hy hc => q12 x hx (hc ▸ hy)⟩
  · intro e he
    rw [us_cons, us_cons, us_nil, List.append_nil, List.mem_append] at he
    rw [us_cons, us_nil, List.append_nil]
    rcases he with he | he
    · rcases q10 e he with w | w | w
      · left; simp [w]
      · exact .inr (.inl w)
      · exact .inr (.inr w)
    · rcases q11 e he with w | w | w
      · left; simp [w]
      · exact .inr (.inl w)
      · exact .inr (.inr w)
  · intro e h1 h2 h3
    rw [us_cons, us_nil, List.append_nil] at h2
    obtain ⟨-, -, w1, -, -, w2, w3, w4⟩ := hout.eq e h1
    simp only [List.mem_cons, List.not_mem_nil, or_false, not_or] at h1
    obtain ⟨k1, k2, k3, k4⟩ := q13.eq e (by simp [h1, h2]) (by rw [hnew]; exact h3)
    exact ⟨k1.trans w1, k2.trans w2, k3.trans w3, k4.trans w4⟩
  · intro e h3
    obtain ⟨k1, k2, k3, k4⟩ := q13.old e (by rw [hnew]; exact h3)
    refine ⟨k2.trans (by rw [hpos]), k3.trans (by rw [hst]; rfl), fun hF => ?_⟩
    obtain ⟨w1, -, -, -, w2, -⟩ := hout.eq e hF
    exact ⟨k1.trans w1, k4.trans w2⟩
  · intro e he
    simp only [List.mem_cons, List.not_mem_nil, or_false] at he
    have : e < st.new := by rcases he with rfl | rfl <;> (rw [hnew]; assumption)
    rw [(q13.old e this).2.2.2, hix]
    rcases he with rfl | rfl <;> simp [upd]
  · intro e he h1 h2
    rw [us_cons, us_cons, us_nil, List.append_nil] at he
    rw [us_cons, us_nil, List.append_nil] at h2
    simp only [List.mem_cons, List.not_mem_nil, or_false, not_or] at h1
    refine q19 e he ?_
    rw [hnew]
    rcases List.mem_append.1 he with he | he
    · rcases q10 e he with w | w | w
      · exact absurd w h1.1
      · exact absurd w h2
      · exact w.1
    · rcases q11 e he with w | w | w
      · exact absurd w h1.2
      · exact absurd w h2
      · exact w.1
  · intro e he
    simp only [List.mem_cons, List.not_mem_nil, or_false] at he
    rcases he with rfl | rfl
    · exact ⟨a1, by simp, .inr q7.symm⟩
    · exact ⟨a2, by simp, .inl q8.symm⟩
  · refine flag_of hT' ⟨by simpa using q17.congr hpos hin hpts, fun hq => ?_⟩
    have := (q18 (by rw [hpl]; exact hq a (by simp))).congr hpos hin hpts
    simpa using this
  · intro f hf
    rw [q16 f hf, hasum]; simp; ring

end Hob3l.Tri
