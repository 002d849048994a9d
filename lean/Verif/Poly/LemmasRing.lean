import Verif.Poly.LemmasPath
import Verif.Ring.Props

/-!
The state of `cq_sweep_poly`.
-/

namespace Hob3l.Poly

open Hob3l.Ring (IsRing Link)

/-- the position of an end of an edge -/
def co (l : List Vtx) (e : Nat) (r : Bool) : P := ((l.find? fun v => v.edge = e ∧ v.rigt = r).map (·.pos)).getD (0, 0)

def Started (pre : List Vtx) (e : Nat) : Prop := ∃ v ∈ pre, v.edge = e ∧ v.rigt = false
def Ended (pre : List Vtx) (e : Nat) : Prop := ∃ v ∈ pre, v.edge = e ∧ v.rigt = true

/-! ### proper lists -/

theorem proper_unique {l : List Vtx} (hl : Proper l) {v w : Vtx} (hv : v ∈ l) (hw : w ∈ l) (he : v.edge = w.edge)
    (hr : v.rigt = w.rigt) : v = w := by
  have h1 : v ∈ l.filter (fun x => x.edge = v.edge) := by simp [hv]
  have h2 : w ∈ l.filter (fun x => x.edge = v.edge) := by simp [hw, he]
  rcases hl v.edge with h | ⟨a, b, -, h⟩
  · rw [h] at h1; simp at h1
  · rw [h] at h1 h2
    simp at h1 h2
    rcases h1 with h1 | h1 <;> rcases h2 with h2 | h2
    · rw [h1, h2]
    · rw [h1, h2] at hr; simp at hr
    · rw [h1, h2] at hr; simp at hr
    · rw [h1, h2]

theorem co_mem {l : List Vtx} (hl : Proper l) {v : Vtx} (hv : v ∈ l) : co l v.edge v.rigt = v.pos := by
  unfold co
  cases h : l.find? (fun w => w.edge = v.edge ∧ w.rigt = v.rigt) with
  | none =>
    rw [List.find?_eq_none] at h
    exact absurd (h v hv) (by simp)
  | some w =>
    have h1 := List.find?_some h
    simp at h1
    have := proper_unique hl (List.mem_of_find?_eq_some h) hv h1.1 h1.2
    rw [this]; rfl

/-- what is known when the next vertex is read -/
theorem proper_next {pre rest : List Vtx} {v : Vtx} (hl : Proper (pre ++ v :: rest)) :
    (v.rigt = false → ¬ Started pre v.edge ∧ ¬ Ended pre v.edge) ∧ (v.rigt = true → Started pre v.edge ∧ ¬ Ended pre v.edge) := by
  have hkey : ∀ w ∈ pre, w.edge = v.edge → w ∈ pre.filter (fun x => x.edge = v.edge) := by
    intro w hw e; simp [hw, e]
  rcases hl v.edge with h | ⟨a, b, -, h⟩
  · rw [List.filter_append, List.filter_cons] at h
    simp at h
  · rw [List.filter_append, List.filter_cons] at h
    simp only [decide_true, if_true] at h
    generalize hf : pre.filter (fun x => x.edge = v.edge) = F at h
    rw [hf] at hkey
    match F, hf, h with
    | [], hf, h =>
      simp at h
      have hno : ∀ w ∈ pre, w.edge ≠ v.edge := fun w hw e => by have := hkey w hw e; simp at this
      constructor
      · intro _
        exact ⟨fun ⟨w, hw, e, _⟩ => hno w hw e, fun ⟨w, hw, e, _⟩ => hno w hw e⟩
      · intro hr; rw [h.1] at hr; simp at hr
    | [x], hf, h =>
      simp at h
      have hx : x ∈ pre := by
        have : x ∈ pre.filter (fun x => x.edge = v.edge) := by rw [hf]; simp
        exact (List.mem_filter.1 this).1
      have hvr : v.rigt = true := by rw [h.2.1]
      constructor
      · intro hr; rw [hvr] at hr; simp at hr
      · intro _
        refine ⟨⟨x, hx, by rw [h.1], by rw [h.1]⟩, ?_⟩
        rintro ⟨w, hw, e, hr⟩
        have := hkey w hw e
        simp at this
        rw [this, h.1] at hr; simp at hr
    | x :: y :: F, hf, h => simp at h

theorem proper_end {l : List Vtx} (hl : Proper l) {e : Nat} (h : Started l e) : Ended l e := by
  obtain ⟨v, hv, he, -⟩ := h
  have h1 : v ∈ l.filter (fun x => x.edge = e) := by simp [hv, he]
  rcases hl e with h | ⟨a, b, -, h⟩
  · rw [h] at h1; simp at h1
  · have : (⟨e, true, b⟩ : Vtx) ∈ l.filter (fun x => x.edge = e) := by rw [h]; simp
    exact ⟨_, (List.mem_filter.1 this).1, rfl, rfl⟩

theorem started_snoc {pre : List Vtx} {v : Vtx} {e : Nat} :
    Started (pre ++ [v]) e ↔ Started pre e ∨ (v.edge = e ∧ v.rigt = false) := by
  simp only [Started, List.mem_append, List.mem_singleton]
  constructor
  · rintro ⟨w, hw | rfl, h⟩
    · exact .inl ⟨w, hw, h⟩
    · exact .inr h
  · rintro (⟨w, hw, h⟩ | h)
    · exact ⟨w, .inl hw, h⟩
    · exact ⟨v, .inr rfl, h⟩

theorem ended_snoc {pre : List Vtx} {v : Vtx} {e : Nat} :
    Ended (pre ++ [v]) e ↔ Ended pre e ∨ (v.edge = e ∧ v.rigt = true) := by
  simp only [Ended, List.mem_append, List.mem_singleton]
  constructor
  · rintro ⟨w, hw | rfl, h⟩
    · exact .inl ⟨w, hw, h⟩
    · exact .inr h
  · rintro (⟨w, hw, h⟩ | h)
    · exact ⟨w, .inl hw, h⟩
    · exact ⟨v, .inr rfl, h⟩

/-! ### rings -/

theorem ring_links {s : Ring.St} {L : List Nat} (h : IsRing s L) {x : Nat} (hx : x ∈ L) :
    s.prv (s.nxt x) = x ∧ s.nxt (s.prv x) = x := by
  obtain ⟨A, B, rfl⟩ := List.append_of_mem hx
  have h' := Ring.ring_rot h
  rw [List.cons_append] at h'
  generalize B ++ A = C at h'
  constructor
  · cases C with
    | nil =>
      have := Ring.ring_single h'
      rw [this.1, this.2]
    | cons d C =>
      have := Ring.ring_nxt_head h'
      rw [this.1, this.2]
  · obtain ⟨a, ha⟩ := Option.isSome_iff_exists.1 (show ((x :: C).getLast?).isSome by simp)
    have := Ring.ring_last h' ha
    rw [this.2, this.1]

/-- the first and last edge of a ring with an open end, and the edges between -/
abbrev Arm := Nat × List Nat × Nat

def Arm.list (r : Arm) : List Nat := r.1 :: r.2.1 ++ [r.2.2]

def flat (R : List Arm) : List Nat := R.flatMap Arm.list

/-- a ring with one open end, between the last and the first edge -/
structure ArmOk (l : List Vtx) (ring : Ring.St) (back : Nat → Bool) (tree : List Nat) (r : Arm) : Prop where
  ring : IsRing ring r.list
  bt : r.1 ∈ tree
  ft : r.2.2 ∈ tree
  mt : ∀ x ∈ r.2.1, x ∉ tree
  bb : back r.1 = true
  fb : back r.2.2 = false
  chain : r.list.IsChain fun x y => co l x (!back x) = co l y (back y)

theorem ArmOk.frame {l : List Vtx} {ring ring' : Ring.St} {back back' : Nat → Bool} {tree tree' : List Nat} {r : Arm}
    (h : ArmOk l ring back tree r) (hr : IsRing ring' r.list) (hb : ∀ x ∈ r.list, back' x = back x)
    (ht : ∀ x ∈ r.list, x ∈ tree' ↔ x ∈ tree) : ArmOk l ring' back' tree' r := by
  have m1 : r.1 ∈ r.list := by simp [Arm.list]
  have m2 : r.2.2 ∈ r.list := by simp [Arm.list]
  refine ⟨hr, (ht _ m1).2 h.bt, (ht _ m2).2 h.ft, fun x hx => ?_, ?_, ?_, ?_⟩
  · rw [ht x (by simp [Arm.list, hx])]; exact h.mt x hx
  · rw [hb _ m1]; exact h.bb
  · rw [hb _ m2]; exact h.fb
  · refine List.IsChain.imp_of_mem_imp ?_ h.chain
    intro x y hx hy e
    rw [hb x hx, hb y hy]; exact e

/-- the coordinates of an edge of a path -/
def cpair (pts : List P) (e : Nat × Nat) : Option P × Option P := (pts[e.1]?, pts[e.2]?)

/-- the direction in which an edge is traced -/
def dirOf (l : List Vtx) (back : Nat → Bool) (e : Nat) : Option P × Option P := (some (co l e (back e)), some (co l e (!back e)))

/-- the invariant for the points -/
structure PtInv (pre : List Vtx) (st : St) : Prop where
  ptOk : ∀ v ∈ pre, st.res.points[st.pt v.edge v.rigt]? = some v.pos
  lastOk : st.res.points ≠ [] → st.res.points.getLast? = some st.last
  ptsLen : st.res.points.length ≤ pre.length
  auxLen : st.res.aux.length = st.res.points.length

/-- the invariant for the edges; `D`: the edges of the paths so far, `R`: the rings -/
structure TInv (l pre : List Vtx) (ring : Ring.St) (back : Nat → Bool) (tree : List Nat) (offs : Nat) (res : Res) (D : List Nat)
    (R : List Arm) : Prop where
  treeNd : tree.Nodup
  treeIff : ∀ e, e ∈ tree ↔ Started pre e ∧ ¬ Ended pre e
  alt : ∀ (i e : Nat), tree[i]? = some e → back e = decide (i % 2 = 0)
  arms : ∀ r ∈ R, ArmOk l ring back tree r
  nd : (D ++ flat R).Nodup
  all : ∀ e, e ∈ D ++ flat R ↔ Started pre e
  treeR : ∀ e ∈ tree, e ∈ flat R
  pathsNd : ∀ p ∈ res.paths, p.Nodup ∧ p ≠ []
  perm : ((res.paths.flatMap cyc).map (cpair res.points)).Perm (D.map (dirOf l back))
  auxLt : ∀ a ∈ res.aux, a ≤ offs + 1
  offsLe : offs ≤ 2 * D.length

abbrev St.TI (l pre : List Vtx) (st : St) (D : List Nat) (R : List Arm) : Prop :=
  TInv l pre st.ring st.back st.tree st.offs st.res D R

theorem flat_perm {R R' : List Arm} (h : R.Perm R') : (flat R).Perm (flat R') := h.flatMap_right _

theorem TInv.permR {l pre : List Vtx} {ring : Ring.St} {back : Nat → Bool} {tree : List Nat} {offs : Nat} {res : Res} {D : List Nat}
    {R R' : List Arm} (h : TInv l pre ring back tree offs res D R) (hp : R.Perm R') :
    TInv l pre ring back tree offs res D R' := by
  have hf := flat_perm hp
  exact { h with
    arms := fun r hr => h.arms r (hp.mem_iff.2 hr)
    nd := ((hf.append_left D).nodup_iff).1 h.nd
    all := fun e => by rw [← h.all e]; exact ((hf.append_left D).mem_iff).symm
    treeR := fun e he => hf.mem_iff.1 (h.treeR e he) }

/-- the ring of an edge of the tree -/
theorem TInv.find {l pre : List Vtx} {ring : Ring.St} {back : Nat → Bool} {tree : List Nat} {offs : Nat} {res : Res} {D : List Nat}
    {R : List Arm} (h : TInv l pre ring back tree offs res D R) {e : Nat} (he : e ∈ tree) :
    ∃ r ∈ R, (back e = true → e = r.1) ∧ (back e = false → e = r.2.2) := by
  have := h.treeR e he
  unfold flat at this
  rw [List.mem_flatMap] at this
  obtain ⟨r, hr, hm⟩ := this
  have ok := h.arms r hr
  refine ⟨r, hr, ?_⟩
  unfold Arm.list at hm
  rcases List.mem_append.1 hm with hm | hm
  · rcases List.mem_cons.1 hm with rfl | hm
    · exact ⟨fun _ => rfl, fun hb => by rw [ok.bb] at hb; simp at hb⟩
    · exact absurd he (ok.mt e hm)
  · simp at hm; subst hm
    exact ⟨fun hb => by rw [ok.fb] at hb; simp at hb, fun _ => rfl⟩

theorem mem_path_lt {pts : List P} {paths : List (List Nat)} {D : List Nat} {l : List Vtx} {back : Nat → Bool}
    (h : ((paths.flatMap cyc).map (cpair pts)).Perm (D.map (dirOf l back))) {e : Nat × Nat} (he : e ∈ paths.flatMap cyc) :
    e.1 < pts.length ∧ e.2 < pts.length := by
  have h1 : cpair pts e ∈ D.map (dirOf l back) := h.mem_iff.1 (List.mem_map_of_mem he)
  obtain ⟨d, -, hd⟩ := List.mem_map.1 h1
  simp only [dirOf, cpair, Prod.mk.injEq] at hd
  exact ⟨(List.getElem?_eq_some_iff.1 hd.1.symm).1, (List.getElem?_eq_some_iff.1 hd.2.symm).1⟩

/-- more points -/
theorem perm_more {pts : List P} {paths : List (List Nat)} {D : List Nat} {l : List Vtx} {back : Nat → Bool} (more : List P)
    (h : ((paths.flatMap cyc).map (cpair pts)).Perm (D.map (dirOf l back))) :
    ((paths.flatMap cyc).map (cpair (pts ++ more))).Perm (D.map (dirOf l back)) := by
  have : (paths.flatMap cyc).map (cpair (pts ++ more)) = (paths.flatMap cyc).map (cpair pts) := by
    apply List.map_congr_left
    intro e he
    obtain ⟨h1, h2⟩ := mem_path_lt h he
    simp only [cpair, List.getElem?_append_left h1, List.getElem?_append_left h2]
  rw [this]; exact h

/-- the outcome is good, or an assertion about the order in the plane fails -/
def Fine {α : Type} (x : Except Err α) (Q : α → Prop) : Prop := x = .error .order ∨ ∃ a, x = .ok a ∧ Q a

theorem Fine.mono {α : Type} {x : Except Err α} {Q Q' : α → Prop} (h : Fine x Q) (hq : ∀ a, Q a → Q' a) : Fine x Q' := by
  rcases h with h | ⟨a, h, ha⟩
  · exact .inl h
  · exact .inr ⟨a, h, hq a ha⟩

theorem Fine.bind {α β : Type} {x : Except Err α} {f : α → Except Err β} {Q : α → Prop} {Q' : β → Prop} (h : Fine x Q)
    (hf : ∀ a, Q a → Fine (f a) Q') : Fine (x >>= f) Q' := by
  rcases h with h | ⟨a, h, ha⟩
  · subst h; exact .inl rfl
  · subst h; exact hf a ha

theorem Fine.ass {c : Prop} [Decidable c] {e : Err} (h : e = .order ∨ c) : Fine (Poly.ass c e) fun _ => c := by
  unfold Poly.ass
  split_ifs with hc
  · exact .inr ⟨(), rfl, hc⟩
  · rcases h with rfl | h
    · exact .inl rfl
    · exact absurd h hc

theorem Fine.ok {α : Type} {a : α} {Q : α → Prop} (h : Q a) : Fine (.ok a) Q := .inr ⟨a, rfl, h⟩

/-- `point_idx_get` -/
theorem getPt_ok {l pre pre' rest : List Vtx} {st : St} {v : Vtx} {D : List Nat} {R : List Arm} (hl : Proper l)
    (hpre : l = pre ++ v :: rest) (h : PtInv pre st) (ht : st.TI l pre' D R) (hM : l.length + 1 < M) :
    ∃ st', getPt st v = .ok st' ∧ PtInv (pre ++ [v]) st' ∧ st'.TI l pre' D R ∧ st'.last = v.pos ∧
      st'.pt v.edge v.rigt = st'.res.points.length - 1 ∧
      (∀ e b, ¬ (e = v.edge ∧ b = v.rigt) → st'.pt e b = st.pt e b) ∧
      (st.res.points ≠ [] → st.last = v.pos → st'.res.points = st.res.points) := by
  have hlen := congrArg List.length hpre
  simp at hlen
  have hvl : v ∈ l := by rw [hpre]; simp
  have hpl : ∀ w ∈ pre, w ∈ l := fun w hw => by rw [hpre]; simp [hw]
  -- the state with the point
  obtain ⟨s1, hs1, hpos, hlast, hptsl, hauxl, hext, hti, hpt, hsame⟩ : ∃ s1 : St,
      s1 = (if st.res.points.length = 0 ∨ st.last ≠ v.pos then
        { st with last := v.pos, res := { st.res with points := st.res.points ++ [v.pos], aux := st.res.aux ++ [0] } } else st) ∧
      s1.res.points.getLast? = some v.pos ∧ s1.last = v.pos ∧ s1.res.points.length ≤ pre.length + 1 ∧
      s1.res.aux.length = s1.res.points.length ∧ (∃ more, s1.res.points = st.res.points ++ more) ∧
      s1.TI l pre' D R ∧ s1.pt = st.pt ∧ (st.res.points ≠ [] → st.last = v.pos → s1.res.points = st.res.points) := by
    refine ⟨_, rfl, ?_⟩
    have hp := h.ptsLen
    split_ifs with hc
    · refine ⟨by simp, rfl, by simpa using hp, by simpa using h.auxLen, ⟨_, rfl⟩, ?_, rfl, ?_⟩
      · exact { ht with
          perm := perm_more _ ht.perm
          auxLt := fun a ha => by
            rcases List.mem_append.1 ha with ha | ha
            · exact ht.auxLt a ha
            · simp at ha; omega }
      · intro h1 h2
        rcases hc with hc | hc
        · exact absurd (List.length_eq_zero_iff.1 hc) h1
        · exact absurd h2 hc
    · rw [not_or] at hc
      have hne : st.res.points ≠ [] := fun e => hc.1 (by rw [e]; rfl)
      have he : st.last = v.pos := not_not.1 hc.2
      exact ⟨by rw [h.lastOk hne, he], he, by omega, h.auxLen, ⟨[], by simp⟩, ht, rfl, fun _ _ => rfl⟩
  have hne : s1.res.points ≠ [] := by intro e; rw [e] at hpos; simp at hpos
  have hl0 : 0 < s1.res.points.length := List.length_pos_iff.2 hne
  refine ⟨{ s1 with pt := fun e b => if e = v.edge ∧ b = v.rigt then s1.res.points.length - 1 else s1.pt e b }, ?_, ?_, hti, hlast,
    by simp, ?_, hsame⟩
  · unfold getPt
    simp only [← hs1, ass]
    rw [if_pos hl0, if_pos (by omega)]
    rfl
  · refine ⟨?_, fun _ => by rw [hpos, hlast], by simpa using hptsl, hauxl⟩
    intro w hw
    change s1.res.points[if w.edge = v.edge ∧ w.rigt = v.rigt then s1.res.points.length - 1 else s1.pt w.edge w.rigt]? = _
    split_ifs with hc
    · have hwl : w ∈ l := by
        rcases List.mem_append.1 hw with hw | hw
        · exact hpl w hw
        · simp at hw; rw [hw]; exact hvl
      rw [proper_unique hl hwl hvl hc.1 hc.2, ← hpos, List.getLast?_eq_getElem?]
    · rcases List.mem_append.1 hw with hw | hw
      · obtain ⟨more, hm⟩ := hext
        have := h.ptOk w hw
        rw [hpt, hm, List.getElem?_append_left (List.getElem?_eq_some_iff.1 this).1]
        exact this
      · simp at hw; subst hw; simp at hc
  · intro e b hc
    change (if e = v.edge ∧ b = v.rigt then s1.res.points.length - 1 else s1.pt e b) = _
    rw [if_neg hc, hpt]

end Hob3l.Poly
