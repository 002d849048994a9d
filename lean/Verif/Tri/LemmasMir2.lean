import Verif.Tri.LemmasMir

/-!
`flush_triangle_fore` and `flush_triangle_back` for a path.
-/

namespace Hob3l.Tri

open Hob3l.Poly (P Vtx Err ass Ins cross3 vec2Cmp treeNext treePrev Small crossI cross3_eq)

/-- the first edge of a path -/
def hdU (U : List (Nat × Nat)) : Nat × Nat := U.head?.getD (0, 0)

/-- the points of a path -/
def pts (s : St) (U : List (Nat × Nat)) : List (P × Nat) := (nodes s U).map Nd.pi

/-- the path `U` is replaced by `U'` -/
structure Res (v : P) (closed : Bool) (s : St) (U : List (Nat × Nat)) (s' : St) (U' : List (Nat × Nat)) (T : List Tri) : Prop where
  tris : s'.tris = s.tris ++ T
  path : Path s' U'
  fr : Fr s s' (ues U)
  prv : s'.ring.prv (hdU U).1 = s.ring.prv (hdU U).1
  nxt : s'.ring.nxt (lastU U).2 = s.ring.nxt (lastU U).2
  sub : (ues U').Sublist (ues U)
  head : (hdU U').1 = (hdU U).1
  last : (lastU U').2 = (lastU U).2
  hd : 2 ≤ U'.length → pts s U' ≠ [] → (lastU U' = lastU U ∨ hdU U' = hdU U)
  kp : ∀ e, (e, e) ∈ U' → (e, e) ∈ U
  snd : Snd s U T
  cmp : (∀ q ∈ (nodes s U).map Nd.pos, q ≠ v) → (closed = true → U.length ≠ 2) → Cmp s U U' T

theorem hdU_revU (U : List (Nat × Nat)) : hdU (revU U) = (lastU U).swap := by
  unfold hdU lastU revU
  rw [List.head?_reverse, List.getLast?_map]
  cases U.getLast? <;> rfl

theorem lastU_revU' (U : List (Nat × Nat)) : lastU (revU U) = (hdU U).swap := by
  unfold hdU lastU revU
  rw [List.getLast?_reverse, List.head?_map]
  cases U.head? <;> rfl

theorem hdU_of {U : List (Nat × Nat)} {y : Nat} (h : U.head?.map (·.1) = some y) : (hdU U).1 = y := head_getD h

theorem mir_back_inj {s s' : St} (h : (mir s').back = (mir s).back) : s'.back = s.back := by
  funext e
  have := congrFun h e
  simpa [mir] using this

theorem fr_mir {s s' : St} {S : List Nat} (h : Fr (mir s) (mir s') S) : Fr s s' S :=
  ⟨mir_back_inj h.back, h.inner, h.idx, h.pos, h.rm, h.new, h.tree, h.last, h.points, h.prv, h.nxt, h.dis⟩

theorem pts_mir {s : St} {U : List (Nat × Nat)} (h : Path s U) : pts (mir s) (revU U) = (pts s U).reverse := nodes_mir h

theorem length_revU (U : List (Nat × Nat)) : (revU U).length = U.length := by unfold revU; simp

theorem mem_nodes_small {s : St} {U : List (Nat × Nat)} (h : ∀ q ∈ pts s U, Small q.1) : ∀ n ∈ nodes s U, Small n.pos :=
  fun n hn => h n.pi (List.mem_map_of_mem hn)

theorem pts_pos (s : St) (U : List (Nat × Nat)) : (nodes s U).map Nd.pos = (pts s U).map Prod.fst := by
  unfold pts; rw [List.map_map]; rfl

theorem mem_revU_d {U : List (Nat × Nat)} {e : Nat} : (e, e) ∈ revU U ↔ (e, e) ∈ U := by
  unfold revU
  rw [List.mem_reverse, List.mem_map]
  constructor
  · rintro ⟨u, h1, h2⟩
    have : u = (e, e) := by
      have := congrArg Prod.swap h2
      simpa using this
    rw [← this]; exact h1
  · intro h
    exact ⟨(e, e), h, rfl⟩

theorem flush_fore {p : V} {y0 : Nat} {closed clo : Bool} {s : St} {U : List (Nat × Nat)} {fuel : Nat}
    (hg : Go s p y0 U closed clo) (hnd : s.points.Nodup) (hsp : Small (posOf s p)) (hsm : ∀ q ∈ pts s U, Small q.1)
    (hch : (posOf s p :: (pts s U).map Prod.fst).IsChain (· ≠ ·)) (hk : U.length ≤ fuel) :
    ∃ s' U' T, flush fuel s p false = .ok s' ∧ Res (posOf s p) closed s U s' U' T ∧
      Fl false (posOf s p) (ix s p) closed clo (nodes s U) T (nodes s U') ∧ (2 ≤ U'.length → lastU U' = lastU U) := by
  obtain ⟨s', U', T, h1, h2⟩ := flushG_ok (neg := false) hg hnd hsp (mem_nodes_small hsm) (by rw [pts_pos]; exact hch) hk
  have e1 := hdU_of hg.head
  have e2 := hdU_of h2.head
  exact ⟨s', U', T, h1, ⟨h2.tris, h2.path, h2.fr, by rw [e1]; exact h2.prv, h2.nxt, h2.sub, by rw [e1, e2], h2.last,
    fun h _ => .inl (h2.lst h), h2.kp, h2.snd, fun h => h2.cmp fun n hn => h _ (List.mem_map_of_mem hn)⟩, h2.fl, h2.lst⟩

theorem flush_back {p : V} {y0 : Nat} {closed clo : Bool} {s : St} {U : List (Nat × Nat)} {fuel : Nat}
    (hg : Go (mir s) p y0 (revU U) closed clo) (hp : Path s U) (hnd : s.points.Nodup) (hsp : Small (posOf s p))
    (hsm : ∀ q ∈ pts s U, Small q.1)
    (hch : (posOf s p :: ((pts s U).map Prod.fst).reverse).IsChain (· ≠ ·)) (hk : U.length ≤ fuel) :
    ∃ s' U' T, flush fuel s p true = .ok s' ∧ Res (posOf s p) closed s U s' U' T ∧
      Fl true (posOf s p) (ix s p) closed clo (nodes (mir s) (revU U)) T (nodes (mir s) (revU U')) ∧
      (2 ≤ U'.length → hdU U' = hdU U) := by
  have hpm := pts_mir hp
  obtain ⟨s1, U1, T, h1, h2⟩ := flushG_ok (neg := true) (fuel := fuel) hg hnd hsp
    (mem_nodes_small (by rw [hpm]; intro q hq; exact hsm q (List.mem_reverse.1 hq)))
    (by rw [pts_pos, hpm, List.map_reverse]; exact hch) (by rw [length_revU]; exact hk)
  have h3 : flush fuel s p true = .ok (mir s1) := by
    have := flushG_mir true false fuel s p
    rw [h1] at this
    unfold flush
    simp only [Bool.not_false] at this
    cases h : flushG true true fuel s p with
    | error e => rw [h] at this; cases this
    | ok s2 =>
      rw [h] at this
      have := Except.ok.inj this
      rw [this, mir_mir]
  obtain ⟨s', rfl⟩ : ∃ s', s1 = mir s' := ⟨mir s1, (mir_mir s1).symm⟩
  obtain ⟨U', rfl⟩ : ∃ U', U1 = revU U' := ⟨revU U1, (revU_revU U1).symm⟩
  rw [mir_mir] at h3
  have e1 := hdU_of hg.head
  have e2 := hdU_of h2.head
  rw [hdU_revU] at e1 e2
  have hlst : 2 ≤ U'.length → hdU U' = hdU U := by
    intro h
    have := h2.lst (by rw [length_revU]; exact h)
    rw [lastU_revU', lastU_revU'] at this
    exact Prod.swap_injective this
  have hpath : Path s' U' := by
    have := path_mir h2.path
    rwa [mir_mir, revU_revU] at this
  refine ⟨s', U', T, h3, ⟨h2.tris, hpath, ?_, ?_, ?_, ?_, ?_, ?_, fun h _ => .inr (hlst h), ?_, ?_, ?_⟩, h2.fl, hlst⟩
  · have := fr_mir h2.fr
    rw [ues_revU] at this
    exact this.mono fun e he => List.mem_reverse.1 he
  · have := h2.nxt
    rw [lastU_revU'] at this
    exact this
  · have := h2.prv
    rw [← e1] at this
    exact this
  · have := h2.sub
    rw [ues_revU, ues_revU] at this
    exact List.reverse_sublist.1 this
  · have := h2.last
    rw [lastU_revU', lastU_revU'] at this
    exact this
  · show (lastU U').swap.1 = (lastU U).swap.1
    rw [e1, e2]
  · exact fun e he => mem_revU_d.1 (h2.kp e (mem_revU_d.2 he))
  · exact (h2.snd.congr rfl rfl rfl).mono fun e he => mem_revU_d.1 he
  · intro h hl e he hi
    refine (h2.cmp (fun n hn => ?_) (by rw [length_revU]; exact hl) e (mem_revU_d.2 he) hi).imp (fun h => mem_revU_d.1 h)
      fun h => h.congr rfl rfl
    have : n.pos ∈ (pts (mir s) (revU U)).map Prod.fst := by
      rw [← pts_pos]; exact List.mem_map_of_mem hn
    rw [hpm, List.map_reverse, List.mem_reverse, ← pts_pos] at this
    exact h _ this

end Hob3l.Tri
