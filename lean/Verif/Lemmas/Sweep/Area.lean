import Verif.Lemmas.Sweep.Corner
import Verif.Lemmas.Sweep.Crossing
import Verif.Lemmas.Sweep.OpenLinear

/-! Operands of a sweep which bound areas. -/

set_option linter.unusedSectionVars false

namespace Orient

variable {K : Type} [Field K] [LinearOrder K] [IsStrictOrderedRing K]

open Segment State

/-! ### events beyond the last abscissa stay in the queue -/

namespace eventsQueue

/-- Events beyond the abscissa are queued. -/
def Waiting (stopX : K) (s : State K) : Prop := ∀ e, s.Valid e → stopX < (s.evStart e).x → e ∈ s.queue

theorem Waiting.elems {stopX : K} {s s' : State K} (h : Waiting stopX s) (hw : s.WF)
    (he : Elems s s') : Waiting stopX s' := by
  intro e hv hx
  rcases he.queue.2 e hv with hv | hv
  · rw [(he.evStart hw hv).1] at hx
    exact he.queue.1 e (h e hv hx)
  · exact hv

theorem Waiting.pop {stopX : K} {s : State K} (h : Waiting stopX s) {e : Ev}
    (he : (s.evStart e).x ≤ stopX) : Waiting stopX (popped s e) := by
  intro x hv hx
  have : x ≠ e := by rintro rfl; exact absurd hx (not_lt.mpr he)
  exact (List.mem_erase_of_ne this).mpr (h x hv hx)

theorem Reaches.waiting {linear : Bool} {context : Context K} (hc : context.Exact) {stopX : K}
    {c d : Config K} {ems : List (Emitted K)} (h : Reaches linear context stopX c ems d)
    (hi : Inv c) (h0 : Waiting stopX c.s) : Waiting stopX d.s := by
  induction h with
  | refl => exact h0
  | tail h1 h2 ih =>
    obtain ⟨hd, hruns⟩ := h1.inv hc hi
    obtain ⟨e, t, it, -, hel, -⟩ := sweepStep_ok hc hd h2
    have hp := ih.pop it.le
    rcases it.closed with ⟨-, -, rfl, -, -⟩ | ⟨-, -, rfl, -, -⟩
    · exact hp.elems (pop_wf hd.wf e) hel
    · obtain ⟨p, hp'⟩ := hd.groupOK
      rename_i d1 _
      have hgr : GroupOK (popped d1.s e) p d1.group := hp'
      obtain ⟨k1, -, -⟩ := closeGroup_spec linear context (pop_wf hd.wf e) hgr
      exact (hp.elems (pop_wf hd.wf e) k1.elems).elems (k1.elems.runs.wf (pop_wf hd.wf e)) hel

theorem sweep_waiting (linear : Bool) {context : Context K} (hc : context.Exact) (stopX : K)
    {s f : State K} (h : s.Fresh) (hf : (sweep linear context stopX s).2 = .ok f) :
    Waiting stopX f := by
  rcases sweep_ends linear hc stopX h.wf h.length with ⟨ems, d, h1, h2, h3, h4⟩ | ⟨h1, -⟩
  swap
  · rw [h1] at hf; cases hf
  obtain rfl := Except.ok.inj (hf.symm.trans h4)
  obtain ⟨hd, hruns⟩ := h1.inv hc (initial_inv context h.wf)
  have h0 : Waiting stopX (initial context s).s := by
    intro e hv _
    cases e with
    | left i => exact h.lefts i hv
    | right i => exact h.rights i (h.nextRight ▸ hv)
  obtain ⟨p, hp⟩ := hd.groupOK
  obtain ⟨k1, -, -⟩ := closeGroup_spec linear context hd.wf hp
  exact (h1.waiting hc (initial_inv context h.wf) h0).elems hd.wf k1.elems

/-- Points of an operand beyond the abscissa leave an event of it in the queue. -/
theorem sweep_queued (linear : Bool) {context : Context K} (hc : context.Exact) (stopX : K)
    {s f : State K} (h : s.Fresh) (hf : (sweep linear context stopX s).2 = .ok f) {b : Bool}
    {z : Point K} (hz : z ∈ s.operand b) (hx : stopX < z.x) : ∃ e ∈ f.queue, f.evFromTest e = b := by
  have sw := sweep_swept linear hc stopX h hf
  obtain ⟨o, ho⟩ := sw.runs.refines h.wf
  rw [← ho.operand b] at hz
  obtain ⟨i, hi, hb, hm⟩ := hz
  obtain ⟨k1, k2⟩ := sw.wf.leftRight i hi
  refine ⟨.right (f.lefts i).right, sweep_waiting linear hc stopX h hf _ k1 ?_, ?_⟩
  · have : f.evStart (.right (f.lefts i).right) = f.leftEnd i := rfl
    rw [this]
    refine hx.trans_le ?_
    have hlt := sw.wf.lt i hi
    obtain ⟨t, t0, t1, rfl⟩ := hm
    have := x_le_of_le hlt.le
    simp only [lerp, State.seg]
    nlinarith
  · change (f.lefts (f.rights (f.lefts i).right).left).fromTest = b
    rw [k2]; exact hb

end eventsQueue

/-! ### segments with flags -/

namespace State

/-- The segments of an operand with the flags of their events. -/
def marks (s : State K) (b : Bool) : List (Segment K × Bool) :=
  ((List.range s.nextLeft).filter (fun i => decide ((s.lefts i).fromTest = b))).map
    fun i => (s.seg i, (s.lefts i).interiorToLeft)

theorem marks_fst (s : State K) (b : Bool) : (s.marks b).map Prod.fst = s.segs b := by
  unfold marks segs
  rw [List.map_map]
  rfl

theorem marks_empty (b : Bool) : (State.empty : State K).marks b = [] := by
  simp [marks, State.empty]

theorem mem_marks {s : State K} {b : Bool} {i : Nat} (hi : i < s.nextLeft)
    (hb : (s.lefts i).fromTest = b) : (s.seg i, (s.lefts i).interiorToLeft) ∈ s.marks b := by
  unfold marks
  exact List.mem_map.mpr ⟨i, by simp [hi, hb], rfl⟩

/-- A registered segment with its flag. -/
def marked (e : SegmentEndpoints K) : Segment K × Bool := (sorted e, !decide (e.1 > e.2))

theorem registerOne_marks {s : State K} (b : Bool) (e : SegmentEndpoints K) (h : s.WF) (b' : Bool) :
    (s.registerOne b e).marks b' = s.marks b' ++ (if b = b' then [marked e] else []) := by
  unfold marks
  rw [registerOne_nextLeft, List.range_succ, List.filter_append, List.map_append]
  congr 1
  · rw [List.filter_congr (q := fun i => decide ((s.lefts i).fromTest = b'))]
    · refine List.map_congr_left fun i hi => ?_
      have hi := List.mem_range.mp (List.mem_filter.mp hi).1
      rw [registerOne_seg_old b e h hi, registerOne_lefts_old s b e hi]
    · intro i hi
      rw [registerOne_lefts_old s b e (List.mem_range.mp hi)]
  · by_cases hb : b = b'
    · simp [registerOne_lefts_new, hb, registerOne_seg_new, marked]
    · simp [registerOne_lefts_new, hb]

theorem Fresh.marks_register {s : State K} (h : s.Fresh) (b : Bool) {l : List (SegmentEndpoints K)}
    (hl : ∀ e ∈ l, e.1 ≠ e.2) (b' : Bool) :
    (s.register b l).marks b' = s.marks b' ++ (if b = b' then l.map marked else []) := by
  unfold State.register
  induction l generalizing s with
  | nil => simp
  | cons e l ih =>
    rw [List.foldl_cons, ih (h.registerOne b (hl e (by simp))) fun e' he' => hl e' (by simp [he']),
      registerOne_marks b e h.wf]
    by_cases hb : b = b' <;> simp [hb]

end State

/-! ### areas -/

/-- The segments `m` with their flags bound the area with the interior `I` and the exterior `E`. -/
structure Area (ε : K) (P : Finset (Point K)) (m : List (Segment K × Bool)) (I E : Set (Point K)) :
    Prop where
  cover : ∀ x, x ∉ segsPts (m.map Prod.fst) → x ∈ I ∨ x ∈ E
  interior : ∀ x ∈ I, x ∉ segsPts (m.map Prod.fst)
  exterior : ∀ x ∈ E, x ∉ segsPts (m.map Prod.fst)
  apart : ∀ x ∈ I, x ∉ E
  const : ∀ x y, (∀ z ∈ (⟨x, y⟩ : Segment K).pts, z ∉ segsPts (m.map Prod.fst)) → (x ∈ I ↔ y ∈ I)
  parity : ∀ p, p ∉ segsPts (m.map Prod.fst) → Generic ε P (p.time ε) →
    (p ∈ I ↔ Odd (lowers ε (p.time ε) p.y (m.map Prod.fst)))
  sides : ∀ u ∈ m, ∀ t, u.1.Live ε t → Generic ε P t →
    (u.2 = true ↔ Even (lowers ε t (u.1.height ε t) (m.map Prod.fst)))

theorem Area.perm {ε : K} {P : Finset (Point K)} {m m' : List (Segment K × Bool)}
    {I E : Set (Point K)} (h : Area ε P m I E) (hp : m.Perm m') : Area ε P m' I E := by
  have hs : segsPts (m'.map Prod.fst) = segsPts (m.map Prod.fst) := by
    ext x
    unfold segsPts
    simp only [Set.mem_setOf_eq]
    constructor
    · rintro ⟨u, hu, hx⟩; exact ⟨u, (hp.map _).mem_iff.mpr hu, hx⟩
    · rintro ⟨u, hu, hx⟩; exact ⟨u, (hp.map _).mem_iff.mp hu, hx⟩
  have hl : ∀ t y, lowers ε t y (m'.map Prod.fst) = lowers ε t y (m.map Prod.fst) :=
    fun t y => (lowers_perm (hp.map _)).symm
  refine ⟨?_, ?_, ?_, h.apart, ?_, ?_, ?_⟩
  · rw [hs]; exact h.cover
  · rw [hs]; exact h.interior
  · rw [hs]; exact h.exterior
  · rw [hs]; exact h.const
  · rw [hs]; intro p h1 h2; rw [hl]; exact h.parity p h1 h2
  · intro u hu t h1 h2; rw [hl]; exact h.sides u (hp.mem_iff.mpr hu) t h1 h2

theorem State.segsPts_marks (s : State K) (b : Bool) :
    segsPts ((s.marks b).map Prod.fst) = s.operand b := by
  rw [State.marks_fst, State.operand_eq]

/-- The numbers of segments below points are those of an area. -/
theorem Area.bounds {ε : K} {P : Finset (Point K)} {s : State K} {b : Bool} {I E : Set (Point K)}
    (h : Area ε P (s.marks b) I E) : Bounds ε P s b := by
  have hop := s.segsPts_marks b
  refine ⟨fun x y _ g1 g2 hav => ?_, fun i hi t ha hg => ?_⟩
  · have hav' : ∀ z ∈ (⟨x, y⟩ : Segment K).pts, z ∉ segsPts ((s.marks b).map Prod.fst) := by
      intro z hz hm
      rw [hop] at hm
      obtain ⟨i, hi, hb, hm⟩ := hm
      exact hav i hi hb z hz hm
    have := h.const x y hav'
    rw [h.parity x (hav' _ (Segment.start_mem ⟨x, y⟩)) g1,
      h.parity y (hav' _ (Segment.finish_mem ⟨x, y⟩)) g2, State.marks_fst] at this
    rw [below_card, below_card]
    exact this
  · have := h.sides _ (mem_marks hi ha.1) t ⟨ha.2.1, ha.2.2⟩ hg
    rw [State.marks_fst] at this
    rw [below_card]
    exact this

/-! ### contours -/

/-- The flag of an edge of a contour traversed counterclockwise or not. -/
def markOf (ccw : Prop) [Decidable ccw] (e : Segment K) : Segment K × Bool :=
  (e.up, decide (e.start < e.finish ↔ ccw))

theorem iff_iff_cancel {a b : Prop} : (a ↔ (a ↔ b)) ↔ b := by
  by_cases ha : a <;> by_cases hb : b <;> simp [ha, hb]

theorem area_contour {ε : K} {P : Finset (Point K)} {c : Contour K} (hs : c.Simple)
    (hP : ∀ v ∈ c.vertices, v ∈ P) (hm : c.Mono ε) {p v q : Point K} (hl : c.LeastCorner p v q) :
    Area ε P (c.edgeList.map (markOf (0 < Orient.cross p v q))) c.interior c.exterior := by
  have hfst : (c.edgeList.map (markOf (0 < Orient.cross p v q))).map Prod.fst = c.ups := by
    rw [List.map_map]; rfl
  have hpts : segsPts c.ups = c.pts := by
    ext x
    unfold Contour.ups Contour.pts segsPts
    simp [Segment.pts_up]
  have hn : ∀ e ∈ c.edgeList, e.Nondegenerate := fun e he => hs.nondegenerate he
  refine ⟨?_, ?_, ?_, ?_, ?_, ?_, ?_⟩
  · rw [hfst, hpts]; exact fun x => Contour.cover
  · rw [hfst, hpts]; exact fun x h => h.1
  · rw [hfst, hpts]; exact fun x h => h.1
  · exact fun x => Contour.not_both
  · rw [hfst, hpts]; exact fun x y => Contour.interior_iff_of_avoids
  · rw [hfst, hpts]
    exact fun x hx hg => (mem_interior_iff_lowers hm hn hx fun w hw => hg w (hP w hw)).1
  · rw [hfst]
    intro u hu t hlive hg
    obtain ⟨e, he, rfl⟩ := List.mem_map.mp hu
    have := turned_iff_cross hs hm hl he hlive fun w hw => hg w (hP w hw)
    unfold Turned at this
    simp only [markOf, decide_eq_true_eq]
    rw [← this]
    exact iff_iff_cancel

end Orient
