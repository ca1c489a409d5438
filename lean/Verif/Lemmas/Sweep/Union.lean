import Verif.Lemmas.Contours
import Verif.Spec.Multi

/-! # Outlines of several contours -/

set_option linter.unusedSectionVars false

namespace Orient

variable {K : Type} [Field K] [LinearOrder K] [IsStrictOrderedRing K]

open Segment State eventsQueue

/-- The opposite flag. -/
def opposite (u : Segment K × Bool) : Segment K × Bool := (u.1, !u.2)

/-- The endpoints which are registered as the marked segment. -/
def unmark (u : Segment K × Bool) : SegmentEndpoints K :=
  if u.2 then (u.1.start, u.1.finish) else (u.1.finish, u.1.start)

theorem marked_unmark {u : Segment K × Bool} (h : u.1.start < u.1.finish) : marked (unmark u) = u := by
  obtain ⟨⟨a, b⟩, f⟩ := u
  have h : a < b := h
  cases f <;> simp [unmark, marked, sorted, h, h.not_gt]

theorem unmark_ne {u : Segment K × Bool} (h : u.1.start < u.1.finish) : (unmark u).1 ≠ (unmark u).2 := by
  obtain ⟨⟨a, b⟩, f⟩ := u
  have h : a < b := h
  cases f <;> simp [unmark, h.ne, h.ne']

section

variable {MG MT : List (Segment K × Bool)} {G T : List (Segment K)} {I E I' E' : Set (Point K)}

theorem Outline.lt (g : Outline MG G I E) {u : Segment K × Bool} (hu : u ∈ MG) :
    u.1.start < u.1.finish := by
  obtain ⟨e, he, h⟩ := List.mem_map.mp (g.segs.mem_iff.mp (List.mem_map_of_mem (f := Prod.fst) hu))
  rw [← h]
  exact Segment.up_lt (g.nondegenerate e he)

theorem Outline.pts (g : Outline MG G I E) : segsPts (MG.map Prod.fst) = segsPts G :=
  segsPts_of_perm (pts_perm g.segs)

theorem map_marked_unmark (g : Outline MG G I E) : (MG.map unmark).map marked = MG := by
  rw [List.map_map]
  conv_rhs => rw [← List.map_id MG]
  exact List.map_congr_left fun u hu => marked_unmark (g.lt hu)

/-- The sweep over two areas. -/
theorem Outline.sweep (g : Outline MG G I' E') (t : Outline MT T I E) :
    ∃ (s : State K) (ε : K) (P : Finset (Point K)), Clock ε P s ∧ ¬ Clash s ∧
      (∀ b, Area ε P (s.marks b) (if b then I else I') (if b then E else E')) ∧
      s.operand false = segsPts G ∧ s.operand true = segsPts T ∧ s.marks false = MG := by
  have nG : ∀ e ∈ MG.map unmark, e.1 ≠ e.2 := by
    intro e he
    obtain ⟨u, hu, rfl⟩ := List.mem_map.mp he
    exact unmark_ne (g.lt hu)
  have nT : ∀ e ∈ MT.map unmark, e.1 ≠ e.2 := by
    intro e he
    obtain ⟨u, hu, rfl⟩ := List.mem_map.mp he
    exact unmark_ne (t.lt hu)
  obtain ⟨m1, m2⟩ := marks_registered nG nT
  have hf := ((Fresh.empty : (State.empty : State K).Fresh).register false nG).register true nT
  rw [map_marked_unmark g] at m1
  rw [map_marked_unmark t] at m2
  set s := (State.empty.register false (MG.map unmark)).register true (MT.map unmark)
  have pG : (s.segs false).Perm (G.map Segment.up) := by rw [← s.marks_fst, m1]; exact g.segs
  have pT : (s.segs true).Perm (T.map Segment.up) := by rw [← s.marks_fst, m2]; exact t.segs
  have reg : Registered s G T := ⟨hf, pts_perm pG, pts_perm pT⟩
  have hcl : ¬ Clash s := by
    rw [reg.clash]
    rintro (h | h)
    · exact h g.apart
    · exact h t.apart
  obtain ⟨P, hP, -⟩ := exists_breakPoints hf.wf
  obtain ⟨ε, hε⟩ := exists_inclination P
  have c : Clock ε P s := ⟨hf.wf, hP, hε⟩
  refine ⟨s, ε, P, c, hcl, fun b => ?_, reg.goalPts, reg.testPts, m1⟩
  cases b
  · exact g.shape.area c (.of_eq m1)
  · exact t.shape.area c (.of_eq m2)

/-- An area is next to the points of its boundary. -/
theorem Outline.near (g : Outline MG G I' E') (t : Outline MT T I E) {z : Point K}
    (hz : z ∈ segsPts G) :
    (z ∈ I → (I' ∩ I).Nonempty ∧ (E' ∩ I).Nonempty) ∧ (z ∈ E → (I' ∩ E).Nonempty) := by
  obtain ⟨s, ε, P, c, hcl, A, h1, -⟩ := g.sweep t
  exact boundary_sides (b := false) c hcl A (h1 ▸ hz : z ∈ State.operand _ false)

theorem Outline.area (g : Outline MG G I E) : ∃ ε P, Area ε P MG I E := by
  obtain ⟨s, ε, P, c, hcl, A, -, -, h⟩ := g.sweep g
  exact ⟨ε, P, h ▸ A false⟩

theorem Outline.cover (g : Outline MG G I E) {x : Point K} (hx : x ∉ segsPts G) : x ∈ I ∨ x ∈ E := by
  obtain ⟨ε, P, A⟩ := g.area
  exact A.cover x (g.pts ▸ hx)

theorem Outline.interior (g : Outline MG G I E) {x : Point K} (hx : x ∈ I) : x ∉ segsPts G := by
  obtain ⟨ε, P, A⟩ := g.area
  exact g.pts ▸ A.interior x hx

theorem Outline.exterior (g : Outline MG G I E) {x : Point K} (hx : x ∈ E) : x ∉ segsPts G := by
  obtain ⟨ε, P, A⟩ := g.area
  exact g.pts ▸ A.exterior x hx

theorem Outline.not_both (g : Outline MG G I E) {x : Point K} (hx : x ∈ I) : x ∉ E := by
  obtain ⟨ε, P, A⟩ := g.area
  exact A.apart x hx

/-- An area whose boundary is not empty has inner and outer points. -/
theorem Outline.inhabited (g : Outline MG G I E) (h : G ≠ []) : I.Nonempty ∧ E.Nonempty := by
  have nG : ∀ e ∈ MG.map unmark, e.1 ≠ e.2 := by
    intro e he
    obtain ⟨u, hu, rfl⟩ := List.mem_map.mp he
    exact unmark_ne (g.lt hu)
  have h0 : (State.empty : State K).Fresh := .empty
  refine Outline.nonempty (h0.register false nG) (MG := MG) ?_ ?_ g h
  · rw [h0.marks_register false nG, State.marks_empty, map_marked_unmark g]
    simp
  · rw [h0.marks_register false nG, State.marks_empty]
    simp

/-- Segments of one line with a common inner point have a common piece. -/
theorem Segment.Same.not_single {ε : K} {u v : Segment K} (h : Same ε u v)
    (hu : u.start.time ε < u.finish.time ε) (hv : v.start.time ε < v.finish.time ε) {p : Point K}
    (pu : u.Inner p) (pv : v.Inner p) : ¬ (u.pts ∩ v.pts).Subsingleton := by
  have left : ∀ {w : Segment K}, w.start.time ε < w.finish.time ε → w.Inner p →
      w.start.time ε < p.time ε ∧ p.time ε ≤ w.finish.time ε := by
    intro w hw hp
    obtain ⟨a, b, c⟩ := (mem_pts_iff_height hw p).mp hp.1
    refine ⟨lt_of_le_of_ne a fun e => hp.2 (.inl ?_), b⟩
    refine Point.ext_time e.symm ?_
    rw [c, ← e, ((mem_pts_iff_height hw _).mp w.start_mem).2.2]
  obtain ⟨a1, a2⟩ := left hu pu
  obtain ⟨b1, b2⟩ := left hv pv
  obtain ⟨t, l1, l2⟩ := exists_between (max_lt a1 b1)
  have n1 : u.pointAt ε t ∈ u.pts := pointAt_mem hu ((le_max_left _ _).trans l1.le) (l2.le.trans a2)
  have n2 : u.pointAt ε t ∈ v.pts := by
    have : u.pointAt ε t = v.pointAt ε t := by unfold pointAt; rw [h.at]
    rw [this]
    exact pointAt_mem hv ((le_max_right _ _).trans l1.le) (l2.le.trans b2)
  intro hs
  have := congrArg (Point.time ε) (hs ⟨pu.1, pv.1⟩ ⟨n1, n2⟩)
  rw [pointAt_time] at this
  exact l2.ne this.symm

/-- A segment which crosses an edge of an area goes from the inside to the outside. -/
theorem Outline.crossed_by (g : Outline MG G I E) (neat : Neat G) {u v : Segment K}
    (hu : u.Nondegenerate) (hv : v ∈ G) (hs : (u.pts ∩ v.pts).Subsingleton) {p : Point K}
    (pu : u.Inner p) (pv : v.Inner p) : (u.pts ∩ I).Nonempty ∧ (u.pts ∩ E).Nonempty := by
  have nG : ∀ e ∈ MG.map unmark, e.1 ≠ e.2 := by
    intro e he
    obtain ⟨w, hw, rfl⟩ := List.mem_map.mp he
    exact unmark_ne (g.lt hw)
  have nT : ∀ e ∈ [(u.start, u.finish)], e.1 ≠ e.2 := by
    intro e he
    rw [List.mem_singleton] at he
    rw [he]
    exact hu
  obtain ⟨m1, m2⟩ := marks_registered nG nT
  have hf := ((Fresh.empty : (State.empty : State K).Fresh).register false nG).register true nT
  rw [map_marked_unmark g] at m1
  set s := (State.empty.register false (MG.map unmark)).register true [(u.start, u.finish)]
  have pG : (s.segs false).Perm (G.map Segment.up) := by rw [← s.marks_fst, m1]; exact g.segs
  have pT : s.segs true = [u.up] := by rw [← s.marks_fst, m2]; rfl
  have reg : Registered s G [u] := ⟨hf, pts_perm pG, pts_perm (.of_eq pT)⟩
  have hcl : ¬ Clash s := by
    rw [reg.clash]
    rintro (h | h)
    · exact h g.apart
    · exact h (List.pairwise_singleton _ _)
  obtain ⟨P, hP, -⟩ := exists_breakPoints hf.wf
  obtain ⟨ε, hε⟩ := exists_inclination P
  have c : Clock ε P s := ⟨hf.wf, hP, hε⟩
  obtain ⟨i, hi, bi, ei⟩ := State.mem_segs.mp (pG.mem_iff.mpr (List.mem_map_of_mem (f := Segment.up) hv))
  obtain ⟨j, hj, bj, ej⟩ := State.mem_segs.mp (pT ▸ List.mem_singleton_self u.up)
  have qu : (s.seg j).Inner p := by rw [ej]; exact Segment.inner_up.mpr pu
  have qv : (s.seg i).Inner p := by rw [ei]; exact Segment.inner_up.mpr pv
  have e : s.operand true = u.pts := by
    rw [reg.testPts]
    ext x
    simp [segsPts]
  have := crossing_sides (b := false) c hcl (g.shape.area c (.of_eq m1)) (neat.up.perm pG.symm).proper
    hj hi bj bi (fun h => h.not_single (c.times hj) (c.times hi) qu qv (by
      rw [ei, ej, Segment.pts_up, Segment.pts_up]; exact hs)) qu qv
  rwa [Bool.not_false, e] at this

end

section

variable {M₁ M₂ : List (Segment K × Bool)} {I₁ E₁ I₂ E₂ : Set (Point K)} {ε : K}
  {P : Finset (Point K)}

/-- A point of a segment at a time when nothing happens is on no segment which has no common piece with
it. -/
theorem pointAt_notMem (h1 : ∀ p ∈ P, ∀ q ∈ P, p < q → p.time ε < q.time ε) {u v : Segment K}
    (hv : v.start < v.finish) (pv : v.start ∈ P ∧ v.finish ∈ P)
    (meet : ¬ Same ε u v → ∀ x ∈ u.pts, x ∈ v.pts → x ∈ P) (hs : (u.pts ∩ v.pts).Subsingleton) {t : K}
    (hl : u.Live ε t) (hg : Generic ε P t) : u.pointAt ε t ∉ v.pts := by
  have hu := hl.1.trans hl.2
  have hv := h1 _ pv.1 _ pv.2 hv
  have hm : u.pointAt ε t ∈ u.pts := pointAt_mem hu hl.1.le hl.2.le
  intro hm'
  by_cases hsame : Same ε u v
  · obtain ⟨k1, k2, -⟩ := (mem_pts_iff_height hv _).mp hm'
    rw [pointAt_time] at k1 k2
    have k1 := lt_of_le_of_ne k1 (hg _ pv.1)
    obtain ⟨t', l1, l2⟩ := exists_between (max_lt hl.1 k1)
    have n1 : u.pointAt ε t' ∈ u.pts := pointAt_mem hu ((le_max_left _ _).trans l1.le) (l2.le.trans hl.2.le)
    have n2 : u.pointAt ε t' ∈ v.pts := by
      have : u.pointAt ε t' = v.pointAt ε t' := by unfold pointAt; rw [hsame.at]
      rw [this]
      exact pointAt_mem hv ((le_max_right _ _).trans l1.le) (l2.le.trans k2)
    have := congrArg (Point.time ε) (hs ⟨hm, hm'⟩ ⟨n1, n2⟩)
    rw [pointAt_time, pointAt_time] at this
    exact l2.ne this.symm
  · exact hg _ (meet hsame _ hm hm') (pointAt_time _ _)

/-- The points inside of exactly one of two areas. -/
theorem Area.add (a₁ : Area ε P M₁ I₁ E₁) (a₂ : Area ε P M₂ I₂ E₂) (f : Bool)
    (l₁ : ∀ u ∈ M₁, u.1.start < u.1.finish) (l₂ : ∀ u ∈ M₂, u.1.start < u.1.finish)
    (p₁ : ∀ u ∈ M₁, u.1.start ∈ P ∧ u.1.finish ∈ P) (p₂ : ∀ u ∈ M₂, u.1.start ∈ P ∧ u.1.finish ∈ P)
    (meet : ∀ u ∈ M₁, ∀ v ∈ M₂, ¬ Same ε u.1 v.1 → ∀ x ∈ u.1.pts, x ∈ v.1.pts → x ∈ P)
    (mono : ∀ p ∈ P, ∀ q ∈ P, p < q → p.time ε < q.time ε)
    (single : ∀ u ∈ M₁, ∀ v ∈ M₂, (u.1.pts ∩ v.1.pts).Subsingleton)
    (on₁ : ∀ x ∈ segsPts (M₁.map Prod.fst), x ∉ I₂)
    (on₂ : ∀ x ∈ segsPts (M₂.map Prod.fst), x ∉ segsPts (M₁.map Prod.fst) → (x ∈ I₁ ↔ f = true)) :
    Area ε P (M₁ ++ if f then M₂.map opposite else M₂)
      {x | x ∉ segsPts (M₁.map Prod.fst) ∧ x ∉ segsPts (M₂.map Prod.fst) ∧ ¬ (x ∈ I₁ ↔ x ∈ I₂)}
      {x | x ∉ segsPts (M₁.map Prod.fst) ∧ x ∉ segsPts (M₂.map Prod.fst) ∧ (x ∈ I₁ ↔ x ∈ I₂)} := by
  have fst : (M₁ ++ if f then M₂.map opposite else M₂).map Prod.fst
      = M₁.map Prod.fst ++ M₂.map Prod.fst := by
    rw [List.map_append]
    congr 1
    cases f
    · simp
    · simp [opposite, Function.comp_def]
  have pts : segsPts (M₁.map Prod.fst ++ M₂.map Prod.fst)
      = segsPts (M₁.map Prod.fst) ∪ segsPts (M₂.map Prod.fst) := by
    ext x
    unfold segsPts
    simp only [List.mem_append, Set.mem_union, Set.mem_ofPred_eq]
    constructor
    · rintro ⟨u, hu | hu, h⟩
      · exact .inl ⟨u, hu, h⟩
      · exact .inr ⟨u, hu, h⟩
    · rintro (⟨u, hu, h⟩ | ⟨u, hu, h⟩)
      · exact ⟨u, .inl hu, h⟩
      · exact ⟨u, .inr hu, h⟩
  have out : ∀ {x}, x ∉ segsPts (M₁.map Prod.fst ++ M₂.map Prod.fst) ↔
      x ∉ segsPts (M₁.map Prod.fst) ∧ x ∉ segsPts (M₂.map Prod.fst) := by
    intro x; rw [pts, Set.mem_union, not_or]
  have even_iff : ∀ {n : Nat} {p : Prop}, (p ↔ Odd n) → (¬ p ↔ Even n) := by
    intro n p h; rw [h, Nat.not_odd_iff_even]
  refine ⟨?_, ?_, ?_, ?_, ?_, ?_, ?_⟩
  · rw [fst]
    intro x hx
    obtain ⟨h1, h2⟩ := out.mp hx
    by_cases h : x ∈ I₁ ↔ x ∈ I₂
    · exact .inr ⟨h1, h2, h⟩
    · exact .inl ⟨h1, h2, h⟩
  · rw [fst]; exact fun x hx => out.mpr ⟨hx.1, hx.2.1⟩
  · rw [fst]; exact fun x hx => out.mpr ⟨hx.1, hx.2.1⟩
  · exact fun x hx hx' => hx.2.2 hx'.2.2
  · rw [fst]
    intro x y hav
    have hx := out.mp (hav x (Segment.start_mem ⟨x, y⟩))
    have hy := out.mp (hav y (Segment.finish_mem ⟨x, y⟩))
    have h1 := a₁.const x y fun z hz => (out.mp (hav z hz)).1
    have h2 := a₂.const x y fun z hz => (out.mp (hav z hz)).2
    simp only [Set.mem_ofPred_eq, hx, hy, not_false_iff, true_and, h1, h2]
  · rw [fst]
    intro p hp hg
    obtain ⟨h1, h2⟩ := out.mp hp
    have e1 := a₁.parity p h1 hg
    have e2 := a₂.parity p h2 hg
    simp only [Set.mem_ofPred_eq, h1, h2, not_false_iff, true_and]
    rw [e1, e2, lowers_append, Nat.odd_add, ← Nat.not_odd_iff_even]
    tauto
  · rw [fst]
    intro u hu t hl hg
    rw [lowers_append]
    have mem : u.1.pointAt ε t ∈ u.1.pts :=
      pointAt_mem (hl.1.trans hl.2) hl.1.le hl.2.le
    rcases List.mem_append.mp hu with hu | hu
    · have hn : u.1.pointAt ε t ∉ segsPts (M₂.map Prod.fst) := by
        rintro ⟨w, hw, hm⟩
        obtain ⟨v, hv, rfl⟩ := List.mem_map.mp hw
        exact pointAt_notMem mono (l₂ v hv) (p₂ v hv) (meet u hu v hv) (single u hu v hv) hl hg hm
      have e := a₂.parity _ hn (by rw [pointAt_time]; exact hg)
      rw [pointAt_time] at e
      have hz := on₁ (u.1.pointAt ε t) ⟨u.1, List.mem_map_of_mem hu, mem⟩
      have he := (even_iff e).mp hz
      have hy : (u.1.pointAt ε t).y = u.1.height ε t := rfl
      rw [hy] at he
      rw [a₁.sides u hu t hl hg, Nat.even_add]
      tauto
    · obtain ⟨v, hv, e1, e2⟩ : ∃ v ∈ M₂, v.1 = u.1 ∧ (u.2 = true ↔ (v.2 = true ↔ f = false)) := by
        cases f
        · exact ⟨u, hu, rfl, by simp⟩
        · obtain ⟨v, hv, rfl⟩ := List.mem_map.mp (show u ∈ M₂.map opposite from hu)
          exact ⟨v, hv, rfl, by simp [opposite]⟩
      have hn : u.1.pointAt ε t ∉ segsPts (M₁.map Prod.fst) := by
        rintro ⟨w, hw, hm⟩
        obtain ⟨w, hw', rfl⟩ := List.mem_map.mp hw
        rw [← e1] at hl hm
        exact pointAt_notMem mono (l₁ w hw') (p₁ w hw')
          (fun hs x h1 h2 => meet w hw' v hv (fun h => hs h.symm) x h2 h1)
          (by rw [Set.inter_comm]; exact single w hw' v hv) hl hg hm
      have e := a₁.parity _ hn (by rw [pointAt_time]; exact hg)
      rw [pointAt_time] at e
      have hz := on₂ (u.1.pointAt ε t) ⟨v.1, List.mem_map_of_mem hv, e1 ▸ mem⟩ hn
      have hy : (u.1.pointAt ε t).y = u.1.height ε t := rfl
      rw [hy] at e
      have s2 := a₂.sides v hv t (e1 ▸ hl) hg
      rw [e1] at s2
      rw [e2, s2, Nat.even_add]
      have := even_iff e
      cases f
      · simp only [reduceCtorEq, iff_false] at hz
        simp only [iff_true]
        tauto
      · simp only [iff_true] at hz
        simp only [reduceCtorEq, iff_false]
        tauto

end

section

variable {M₁ M₂ : List (Segment K × Bool)} {G₁ G₂ : List (Segment K)} {I₁ E₁ I₂ E₂ : Set (Point K)}

theorem mem_segsPts_append {G₁ G₂ : List (Segment K)} {x : Point K} :
    x ∈ segsPts (G₁ ++ G₂) ↔ x ∈ segsPts G₁ ∨ x ∈ segsPts G₂ := by
  unfold segsPts
  simp only [List.mem_append, Set.mem_ofPred_eq]
  constructor
  · rintro ⟨u, hu | hu, h⟩
    · exact .inl ⟨u, hu, h⟩
    · exact .inr ⟨u, hu, h⟩
  · rintro (⟨u, hu, h⟩ | ⟨u, hu, h⟩)
    · exact ⟨u, .inl hu, h⟩
    · exact ⟨u, .inr hu, h⟩

theorem segsPts_append (G₁ G₂ : List (Segment K)) :
    segsPts (G₁ ++ G₂) = segsPts G₁ ∪ segsPts G₂ := Set.ext fun _ => mem_segsPts_append

theorem Outline.nil : Outline ([] : List (Segment K × Bool)) [] ∅ Set.univ := by
  refine ⟨fun ε P _ _ _ => ?_, .of_eq rfl, List.Pairwise.nil, by simp⟩
  have e : segsPts (([] : List (Segment K × Bool)).map Prod.fst) = ∅ := by
    ext x; simp [segsPts]
  refine ⟨?_, ?_, ?_, ?_, ?_, ?_, ?_⟩
  · intro x _; exact .inr trivial
  · intro x hx; cases hx
  · intro x _; rw [e]; simp
  · intro x hx; cases hx
  · intro x y _; simp
  · intro x _ _; simp [lowers]
  · intro u hu; cases hu

/-- Two areas put together: the inner points of exactly one of them. -/
theorem Outline.add (g₁ : Outline M₁ G₁ I₁ E₁) (g₂ : Outline M₂ G₂ I₂ E₂) (f : Bool)
    (single : ∀ u ∈ G₁, ∀ v ∈ G₂, (u.pts ∩ v.pts).Subsingleton)
    (on₁ : ∀ x ∈ segsPts G₁, x ∉ I₂)
    (on₂ : ∀ x ∈ segsPts G₂, x ∉ segsPts G₁ → (x ∈ I₁ ↔ f = true)) :
    Outline (M₁ ++ if f then M₂.map opposite else M₂) (G₁ ++ G₂)
      {x | x ∉ segsPts G₁ ∧ x ∉ segsPts G₂ ∧ ¬ (x ∈ I₁ ↔ x ∈ I₂)}
      {x | x ∉ segsPts G₁ ∧ x ∉ segsPts G₂ ∧ (x ∈ I₁ ↔ x ∈ I₂)} := by
  have fst : (M₁ ++ if f then M₂.map opposite else M₂).map Prod.fst
      = M₁.map Prod.fst ++ M₂.map Prod.fst := by
    rw [List.map_append]
    congr 1
    cases f
    · simp
    · simp [opposite, Function.comp_def]
  have in₂ : ∀ u ∈ M₂, ∃ w ∈ (M₁ ++ if f then M₂.map opposite else M₂), w.1 = u.1 := by
    intro u hu
    have : u.1 ∈ (M₁ ++ if f then M₂.map opposite else M₂).map Prod.fst := by
      rw [fst]; exact List.mem_append.mpr (.inr (List.mem_map_of_mem hu))
    obtain ⟨w, hw, e⟩ := List.mem_map.mp this
    exact ⟨w, hw, e⟩
  have src : ∀ {M : List (Segment K × Bool)} {G : List (Segment K)} {I E : Set (Point K)},
      Outline M G I E → ∀ u ∈ M, ∃ e ∈ G, e.pts = u.1.pts := by
    intro M G I E g u hu
    obtain ⟨e, he, h⟩ := List.mem_map.mp (g.segs.mem_iff.mp (List.mem_map_of_mem (f := Prod.fst) hu))
    exact ⟨e, he, by rw [← h, Segment.pts_up]⟩
  refine ⟨fun ε P hP hM hm => ?_, ?_, ?_, ?_⟩
  · have p₁ : ∀ u ∈ M₁, u.1.start ∈ P ∧ u.1.finish ∈ P :=
      fun u hu => hP u (List.mem_append.mpr (.inl hu))
    have p₂ : ∀ u ∈ M₂, u.1.start ∈ P ∧ u.1.finish ∈ P := by
      intro u hu
      obtain ⟨w, hw, e⟩ := in₂ u hu
      exact e ▸ hP w hw
    have a₁ := g₁.shape ε P p₁ (fun u hu v hv => hM u (List.mem_append.mpr (.inl hu)) v
      (List.mem_append.mpr (.inl hv))) hm
    have a₂ := g₂.shape ε P p₂ (by
      intro u hu v hv
      obtain ⟨w, hw, e⟩ := in₂ u hu
      obtain ⟨w', hw', e'⟩ := in₂ v hv
      rw [← e, ← e']
      exact hM w hw w' hw') hm
    rw [← g₁.pts, ← g₂.pts]
    refine a₁.add a₂ f (fun u => g₁.lt) (fun u => g₂.lt) p₁ p₂ ?_ hm ?_ ?_ ?_
    · intro u hu v hv
      obtain ⟨w, hw, e⟩ := in₂ v hv
      rw [← e]
      exact hM u (List.mem_append.mpr (.inl hu)) w hw
    · intro u hu v hv
      obtain ⟨e, he, h⟩ := src g₁ u hu
      obtain ⟨e', he', h'⟩ := src g₂ v hv
      rw [← h, ← h']
      exact single e he e' he'
    · rw [g₁.pts]; exact on₁
    · rw [g₁.pts, g₂.pts]; exact on₂
  · rw [fst, List.map_append]
    exact g₁.segs.append g₂.segs
  · exact List.pairwise_append.mpr ⟨g₁.apart, g₂.apart, single⟩
  · intro e he
    rcases List.mem_append.mp he with h | h
    · exact g₁.nondegenerate e h
    · exact g₂.nondegenerate e h

/-- The union of areas without common inner points. -/
theorem Outline.union (g₁ : Outline M₁ G₁ I₁ E₁) (g₂ : Outline M₂ G₂ I₂ E₂)
    (single : ∀ u ∈ G₁, ∀ v ∈ G₂, (u.pts ∩ v.pts).Subsingleton) (h : I₁ ∩ I₂ = ∅) :
    Outline (M₁ ++ M₂) (G₁ ++ G₂) (I₁ ∪ I₂) (E₁ ∩ E₂) := by
  have emp : ∀ x, x ∈ I₁ → x ∉ I₂ := fun x h1 h2 => Set.eq_empty_iff_forall_notMem.mp h x ⟨h1, h2⟩
  have on₁ : ∀ x ∈ segsPts G₁, x ∉ I₂ := by
    intro x hx h2
    obtain ⟨y, y1, y2⟩ := ((g₁.near g₂ hx).1 h2).1
    exact emp y y1 y2
  have on₂ : ∀ x ∈ segsPts G₂, x ∉ I₁ := by
    intro x hx h1
    obtain ⟨y, y1, y2⟩ := ((g₂.near g₁ hx).1 h1).1
    exact emp y y2 y1
  have := g₁.add g₂ false single on₁ fun x hx _ => by simp [on₂ x hx]
  simp only [Bool.false_eq_true, if_false] at this
  convert this using 1
  · ext x
    simp only [Set.mem_union, Set.mem_ofPred_eq]
    constructor
    · rintro (h | h)
      · exact ⟨g₁.interior h, fun h2 => on₂ x h2 h, fun e => emp x h (e.mp h)⟩
      · exact ⟨fun h1 => on₁ x h1 h, g₂.interior h, fun e => emp x (e.mpr h) h⟩
    · rintro ⟨-, -, h⟩
      tauto
  · ext x
    simp only [Set.mem_inter_iff, Set.mem_ofPred_eq]
    constructor
    · rintro ⟨h1, h2⟩
      refine ⟨g₁.exterior h1, g₂.exterior h2, ?_⟩
      exact ⟨fun h => absurd h1 (g₁.not_both h), fun h => absurd h2 (g₂.not_both h)⟩
    · rintro ⟨h1, h2, h⟩
      exact ⟨(g₁.cover h1).resolve_left fun h' => emp x h' (h.mp h'),
        (g₂.cover h2).resolve_left fun h' => emp x (h.mpr h') h'⟩

/-- An area without a part of it. -/
theorem Outline.diff (g₁ : Outline M₁ G₁ I₁ E₁) (g₂ : Outline M₂ G₂ I₂ E₂)
    (single : ∀ u ∈ G₁, ∀ v ∈ G₂, (u.pts ∩ v.pts).Subsingleton) (h : I₂ ⊆ I₁) :
    Outline (M₁ ++ M₂.map opposite) (G₁ ++ G₂) (I₁ ∩ E₂) (E₁ ∪ I₂) := by
  have on₁ : ∀ x ∈ segsPts G₁, x ∉ I₂ := fun x hx h2 => g₁.interior (h h2) hx
  have on₂ : ∀ x ∈ segsPts G₂, x ∉ E₁ := by
    intro x hx h1
    obtain ⟨y, y1, y2⟩ := (g₂.near g₁ hx).2 h1
    exact g₁.not_both (h y1) y2
  have := g₁.add g₂ true single on₁ fun x hx h1 => by
    simp only [iff_true]
    exact (g₁.cover h1).resolve_right (on₂ x hx)
  simp only [if_true] at this
  convert this using 1
  · ext x
    simp only [Set.mem_inter_iff, Set.mem_ofPred_eq]
    constructor
    · rintro ⟨h1, h2⟩
      exact ⟨g₁.interior h1, g₂.exterior h2, fun e => g₂.not_both (e.mp h1) h2⟩
    · rintro ⟨h1, h2, hn⟩
      by_cases hx : x ∈ I₁
      · exact ⟨hx, (g₂.cover h2).resolve_left fun h' => hn ⟨fun _ => h', fun _ => hx⟩⟩
      · exact absurd ⟨fun h' => absurd h' hx, fun h' => h h'⟩ hn
  · ext x
    simp only [Set.mem_union, Set.mem_ofPred_eq]
    constructor
    · rintro (h1 | h1)
      · exact ⟨g₁.exterior h1, fun h2 => on₂ x h2 h1, ⟨fun h' => absurd h1 (g₁.not_both h'),
          fun h' => h h'⟩⟩
      · exact ⟨fun h2 => on₁ x h2 h1, g₂.interior h1, ⟨fun _ => h1, fun _ => h h1⟩⟩
    · rintro ⟨h1, h2, e⟩
      rcases g₁.cover h1 with h' | h'
      · exact .inr (e.mp h')
      · exact .inl h'

end

/-! ### registered outlines -/

theorem opposite_opposite (M : List (Segment K × Bool)) : (M.map opposite).map opposite = M := by
  rw [List.map_map]
  conv_rhs => rw [← List.map_id M]
  exact List.map_congr_left fun u _ => by simp [opposite]

/-- The endpoints of the edges of an area which is on the left of them, or on the right of them. -/
structure Oriented (clockwise : Bool) (l : List (SegmentEndpoints K)) (G : List (Segment K))
    (I E : Set (Point K)) : Prop where
  ne : ∀ e ∈ l, e.1 ≠ e.2
  outline : Outline (if clockwise then (l.map marked).map opposite else l.map marked) G I E

section

variable {l₁ l₂ : List (SegmentEndpoints K)} {G₁ G₂ : List (Segment K)} {I₁ E₁ I₂ E₂ : Set (Point K)}
  {b : Bool}

theorem Oriented.nil : Oriented b ([] : List (SegmentEndpoints K)) [] ∅ Set.univ :=
  ⟨by simp, by cases b <;> exact Outline.nil⟩

theorem Oriented.union (o₁ : Oriented b l₁ G₁ I₁ E₁) (o₂ : Oriented b l₂ G₂ I₂ E₂)
    (single : ∀ u ∈ G₁, ∀ v ∈ G₂, (u.pts ∩ v.pts).Subsingleton) (h : I₁ ∩ I₂ = ∅) :
    Oriented b (l₁ ++ l₂) (G₁ ++ G₂) (I₁ ∪ I₂) (E₁ ∩ E₂) := by
  refine ⟨fun e he => (List.mem_append.mp he).elim (o₁.ne e) (o₂.ne e), ?_⟩
  have := o₁.outline.union o₂.outline single h
  cases b <;> simpa using this

theorem Oriented.diff (o₁ : Oriented b l₁ G₁ I₁ E₁) (o₂ : Oriented (!b) l₂ G₂ I₂ E₂)
    (single : ∀ u ∈ G₁, ∀ v ∈ G₂, (u.pts ∩ v.pts).Subsingleton) (h : I₂ ⊆ I₁) :
    Oriented b (l₁ ++ l₂) (G₁ ++ G₂) (I₁ ∩ E₂) (E₁ ∪ I₂) := by
  refine ⟨fun e he => (List.mem_append.mp he).elim (o₁.ne e) (o₂.ne e), ?_⟩
  have := o₁.outline.diff o₂.outline single h
  cases b
  · simp only [Bool.not_false, if_true, opposite_opposite] at this
    simpa using this
  · simpa using this

end

theorem Contour.Simple.oriented' {context : Context K} (hc : context.Exact) {c : Contour K}
    (hs : c.Simple) (b : Bool) : ∃ l, contour.toOrientedEdgesEndpoints c context b = .ok l ∧
      Oriented b l c.edgeList c.interior c.exterior := by
  obtain ⟨p, v, q, hl, hne⟩ := hs.leastCorner
  obtain ⟨l, h1, h2⟩ := marked_oriented hc hs hl hne b
  refine ⟨l, h1, (matches_oriented h1).ne fun u hu => hs.nondegenerate hu, (hs.outline hl).perm ?_⟩
  cases b
  · rw [markOf_congr (show (0 < Orient.cross p v q ↔ false = false) ↔ 0 < Orient.cross p v q by simp)] at h2
    exact h2.symm
  · refine List.Perm.trans (List.Perm.of_eq ?_) (h2.map opposite).symm
    rw [List.map_map]
    refine List.map_congr_left fun e _ => ?_
    simp only [markOf, Function.comp, opposite, Prod.mk.injEq, true_and]
    by_cases hx : e.start < e.finish <;> by_cases hy : 0 < Orient.cross p v q <;> simp [hx, hy]

/-! ### multiregions -/

/-- The edges of several contours. -/
def edgesOf (m : List (Contour K)) : List (Segment K) := m.flatMap Contour.edgeList

theorem segsPts_edgesOf (m : List (Contour K)) : segsPts (edgesOf m) = Multiregion.pts m := by
  ext x
  simp only [segsPts, edgesOf, Multiregion.pts, Contour.pts, List.mem_flatMap, Set.mem_ofPred_eq]
  exact ⟨fun ⟨u, ⟨c, h1, h2⟩, h3⟩ => ⟨c, h1, u, h2, h3⟩, fun ⟨c, h1, u, h2, h3⟩ => ⟨u, ⟨c, h1, h2⟩, h3⟩⟩

/-- Segments of sets without common pieces have at most one common point. -/
theorem single_of_sharesPiece {S T : Set (Point K)} (h : ¬ SharesPiece S T) {u v : Segment K}
    (hu : u.pts ⊆ S) (hv : v.pts ⊆ T) : (u.pts ∩ v.pts).Subsingleton := by
  rintro x ⟨x1, x2⟩ y ⟨y1, y2⟩
  by_contra hn
  exact h ⟨⟨x, y⟩, hn, (Segment.pts_subset x1 y1).trans hu, (Segment.pts_subset x2 y2).trans hv⟩

theorem Multiregion.interior_cons (c : Contour K) (m : List (Contour K)) :
    Multiregion.interior (c :: m) = c.interior ∪ Multiregion.interior m := by
  ext x; simp [Multiregion.interior]

theorem Multiregion.exterior_cons (c : Contour K) (m : List (Contour K)) :
    Multiregion.exterior (c :: m) = c.exterior ∩ Multiregion.exterior m := by
  ext x; simp [Multiregion.exterior]

theorem Multiregion.Valid.cons {c : Contour K} {m : List (Contour K)}
    (h : Multiregion.Valid (c :: m)) : c.Simple ∧ Multiregion.Valid m ∧
      (∀ d ∈ m, c.interior ∩ d.interior = ∅ ∧ ¬ SharesPiece c.pts d.pts) :=
  ⟨h.simple c (by simp), ⟨fun d hd => h.simple d (by simp [hd]), (List.pairwise_cons.mp h.apart).2⟩,
    (List.pairwise_cons.mp h.apart).1⟩

theorem Multiregion.Valid.oriented {context : Context K} (hc : context.Exact) {m : List (Contour K)}
    (h : Multiregion.Valid m) (b : Bool) :
    ∃ l, multiregion.toOrientedEdgesEndpoints m context b = .ok l ∧
      Oriented b l (edgesOf m) (Multiregion.interior m) (Multiregion.exterior m) := by
  induction m with
  | nil =>
    refine ⟨[], rfl, ?_⟩
    have e1 : Multiregion.interior ([] : List (Contour K)) = ∅ := by ext x; simp [Multiregion.interior]
    have e2 : Multiregion.exterior ([] : List (Contour K)) = Set.univ := by
      ext x; simp [Multiregion.exterior]
    rw [e1, e2]
    exact Oriented.nil
  | cons c m ih =>
    obtain ⟨hs, hm, ha⟩ := h.cons
    obtain ⟨l₂, e₂, o₂⟩ := ih hm
    obtain ⟨l₁, e₁, o₁⟩ := hs.oriented' hc b
    refine ⟨l₁ ++ l₂, ?_, ?_⟩
    · unfold multiregion.toOrientedEdgesEndpoints region.toOrientedSegments
      rw [e₁, e₂]
      rfl
    · rw [Multiregion.interior_cons, Multiregion.exterior_cons]
      refine o₁.union o₂ ?_ ?_
      · intro u hu v hv
        obtain ⟨d, hd, hv⟩ := List.mem_flatMap.mp hv
        exact single_of_sharesPiece (ha d hd).2 (fun x hx => ⟨u, hu, hx⟩) (fun x hx => ⟨v, hv, hx⟩)
      · refine Set.eq_empty_iff_forall_notMem.mpr ?_
        rintro x ⟨h1, d, hd, h2⟩
        exact Set.eq_empty_iff_forall_notMem.mp (ha d hd).1 x ⟨h1, h2⟩

/-! ### polygons -/

theorem Polygon.segsPts_edges (g : Polygon K) : segsPts g.edges = g.pts := by
  unfold Polygon.edges Polygon.pts
  rw [segsPts_append]
  exact congrArg₂ _ rfl (segsPts_edgesOf g.holes)

theorem Polygon.Valid.oriented {context : Context K} (hc : context.Exact) {g : Polygon K}
    (h : g.Valid) (b : Bool) : ∃ l, polygon.toOrientedEdgesEndpoints g context b = .ok l ∧
      Oriented b l g.edges g.interior g.exterior := by
  obtain ⟨l₁, e₁, o₁⟩ := h.border.oriented' hc b
  obtain ⟨l₂, e₂, o₂⟩ := h.holes.oriented hc (!b)
  refine ⟨l₁ ++ l₂, ?_, o₁.diff o₂ ?_ ?_⟩
  · unfold polygon.toOrientedEdgesEndpoints region.toOrientedSegments
    rw [e₁, e₂]
    rfl
  · intro u hu v hv
    obtain ⟨d, hd, hv⟩ := List.mem_flatMap.mp hv
    exact single_of_sharesPiece (h.apart d hd) (fun x hx => ⟨u, hu, hx⟩) (fun x hx => ⟨v, hv, hx⟩)
  · rintro x ⟨d, hd, hx⟩
    exact h.inside d hd hx

/-! ### multipolygons -/

/-- The edges of several polygons. -/
def polygonsEdges (l : List (Polygon K)) : List (Segment K) := l.flatMap Polygon.edges

/-- The points inside of one of several polygons. -/
theorem polygons_oriented {context : Context K} (hc : context.Exact) {m : List (Polygon K)}
    (h : Multipolygon.Valid ⟨m⟩) (b : Bool) :
    ∃ l, multipolygon.orientedSegmentsOf context b m = .ok l ∧
      Oriented b l (polygonsEdges m) (Multipolygon.interior ⟨m⟩) (Multipolygon.exterior ⟨m⟩) := by
  induction m with
  | nil =>
    refine ⟨[], rfl, ?_⟩
    have e1 : Multipolygon.interior (⟨[]⟩ : Multipolygon K) = ∅ := by
      ext x; simp [Multipolygon.interior]
    have e2 : Multipolygon.exterior (⟨[]⟩ : Multipolygon K) = Set.univ := by
      ext x; simp [Multipolygon.exterior]
    rw [e1, e2]
    exact Oriented.nil
  | cons g m ih =>
    obtain ⟨ha, hm⟩ := List.pairwise_cons.mp h.apart
    obtain ⟨l₂, e₂, o₂⟩ := ih ⟨fun d hd => h.valid d (List.mem_cons_of_mem _ hd), hm⟩
    obtain ⟨l₁, e₁, o₁⟩ := (h.valid g List.mem_cons_self).oriented hc b
    refine ⟨l₁ ++ l₂, ?_, ?_⟩
    · unfold multipolygon.orientedSegmentsOf
      rw [e₁, e₂]
      rfl
    · have e1 : Multipolygon.interior (⟨g :: m⟩ : Multipolygon K)
          = g.interior ∪ Multipolygon.interior ⟨m⟩ := by
        ext x; simp [Multipolygon.interior]
      have e2 : Multipolygon.exterior (⟨g :: m⟩ : Multipolygon K)
          = g.exterior ∩ Multipolygon.exterior ⟨m⟩ := by
        ext x; simp [Multipolygon.exterior]
      rw [e1, e2]
      refine o₁.union o₂ ?_ ?_
      · intro u hu v hv
        obtain ⟨d, hd, hv⟩ := List.mem_flatMap.mp hv
        refine single_of_sharesPiece (ha d hd).2 ?_ ?_
        · rw [← Polygon.segsPts_edges]; exact fun x hx => ⟨u, hu, hx⟩
        · rw [← Polygon.segsPts_edges]; exact fun x hx => ⟨v, hv, hx⟩
      · refine Set.eq_empty_iff_forall_notMem.mpr ?_
        rintro x ⟨h1, d, hd, h2⟩
        exact Set.eq_empty_iff_forall_notMem.mp (ha d hd).1 x ⟨h1, h2⟩

theorem segsPts_polygonsEdges (m : Multipolygon K) : segsPts (polygonsEdges m.polygons) = m.pts := by
  ext x
  simp only [segsPts, polygonsEdges, Multipolygon.pts, List.mem_flatMap, Set.mem_ofPred_eq,
    ← Polygon.segsPts_edges]
  exact ⟨fun ⟨u, ⟨c, h1, h2⟩, h3⟩ => ⟨c, h1, u, h2, h3⟩, fun ⟨c, h1, u, h2, h3⟩ => ⟨u, ⟨c, h1, h2⟩, h3⟩⟩

end Orient
