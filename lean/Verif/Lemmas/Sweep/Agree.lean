import Verif.Lemmas.Sweep.Register
import Verif.Lemmas.Sweep.Terminate
import Verif.Spec.Nodes
import Mathlib.Data.Set.Finite.Basic

/-! Sweeps with contexts which agree on the points that occur are the same. -/

set_option linter.unusedSectionVars false

namespace Orient

variable {K : Type} [Field K] [LinearOrder K] [IsStrictOrderedRing K]

/-- The contexts agree on points of `N` and parts of the segments of `l` between such points. -/
structure Agree (c d : Context K) (N : Set (Point K)) (l : List (Segment K)) : Prop where
  orientation : ∀ v ∈ N, ∀ a ∈ N, ∀ b ∈ N, c.angleOrientation v a b = d.angleOrientation v a b
  contains : ∀ s ∈ l, ∀ p ∈ N, c.segmentContainsPoint s p = d.segmentContainsPoint s p
  relation : ∀ t ∈ pieces N l, ∀ g ∈ pieces N l, c.segmentsRelation t g = d.segmentsRelation t g
  intersection : ∀ t ∈ pieces N l, ∀ g ∈ pieces N l,
    d.segmentsRelation t g = .touch ∨ d.segmentsRelation t g = .cross →
    c.segmentsIntersection t g = d.segmentsIntersection t g

/-- What the code compares instead of angles. -/
def Context.squaredCosine (c : Context K) (v p a : Point K) : K :=
  (2 * (if c.dotProduct v p v a > 0 then 1 else 0) - 1) * (c.dotProduct v p v a * c.dotProduct v p v a)
    / c.pointsSquaredDistance v a

/-- The contexts compare angles at points of `N` alike. -/
def Alike (c d : Context K) (N : Set (Point K)) : Prop :=
  ∀ v ∈ N, ∀ p ∈ N, ∀ a ∈ N, ∀ b ∈ N, p ≠ v → a ≠ v → b ≠ v →
    (c.squaredCosine v p a < c.squaredCosine v p b ↔ d.squaredCosine v p a < d.squaredCosine v p b)

theorem pieces_mono {N N' : Set (Point K)} {l l' : List (Segment K)} (hN : N' ⊆ N) (hl : l' ⊆ l) :
    pieces N' l' ⊆ pieces N l := fun _ h =>
  ⟨h.1, hN h.2.1, hN h.2.2.1, h.2.2.2.imp fun _ k => ⟨hl k.1, k.2⟩⟩

theorem Agree.mono {c d : Context K} {N N' : Set (Point K)} {l l' : List (Segment K)} (h : Agree c d N l)
    (hN : N' ⊆ N) (hl : l' ⊆ l) : Agree c d N' l' :=
  ⟨fun v hv a ha b hb => h.orientation v (hN hv) a (hN ha) b (hN hb),
    fun s hs p hp => h.contains s (hl hs) p (hN hp),
    fun t ht g hg => h.relation t (pieces_mono hN hl ht) g (pieces_mono hN hl hg),
    fun t ht g hg => h.intersection t (pieces_mono hN hl ht) g (pieces_mono hN hl hg)⟩

theorem Alike.mono {c d : Context K} {N N' : Set (Point K)} (h : Alike c d N) (hN : N' ⊆ N) : Alike c d N' :=
  fun v hv p hp a ha b hb => h v (hN hv) p (hN hp) a (hN ha) b (hN hb)

theorem nodes_mono {l l' : List (Segment K)} (h : l' ⊆ l) : nodes l' ⊆ nodes l := by
  rintro p (⟨s, hs, hp⟩ | ⟨s, hs, t, ht, hp⟩)
  · exact .inl ⟨s, h hs, hp⟩
  · exact .inr ⟨s, h hs, t, h ht, hp⟩

theorem nodes_finite (l : List (Segment K)) : (nodes l).Finite := by
  classical
  let f : Segment K × Segment K → Point K := fun q =>
    if hq : ∃ p, q.1.pts ∩ q.2.pts = {p} then hq.choose else ⟨0, 0⟩
  refine Set.Finite.subset (s := {p | p ∈ l.map Segment.start ++ l.map Segment.finish ++ (l.product l).map f})
    (List.finite_toSet _) ?_
  rintro p (⟨s, hs, hp⟩ | ⟨s, hs, t, ht, hp⟩)
  · rcases hp with rfl | rfl
    · exact List.mem_append_left _ (List.mem_append_left _ (List.mem_map_of_mem hs))
    · exact List.mem_append_left _ (List.mem_append_right _ (List.mem_map_of_mem hs))
  · refine List.mem_append_right _ (List.mem_map.mpr ⟨(s, t), List.pair_mem_product.mpr ⟨hs, ht⟩, ?_⟩)
    have hq : ∃ p, s.pts ∩ t.pts = {p} := ⟨p, hp⟩
    have e : f (s, t) = hq.choose := dif_pos hq
    rw [e]
    exact Set.singleton_injective (hq.choose_spec.symm.trans hp)

namespace State

open Segment

/-- Endpoints and break points are in `P`, the segments are parts of those of `l`. -/
structure Tame (P : Finset (Point K)) (l : List (Segment K)) (s : State K) : Prop where
  wf : s.WF
  breaks : BreakPoints s P
  parts : ∀ i < s.nextLeft, ∃ t ∈ l, (s.seg i).pts ⊆ t.pts

variable {P : Finset (Point K)} {l : List (Segment K)} {s s' : State K}

theorem Tame.elem (h : Tame P l s) (he : Elem s s') : Tame P l s' := by
  refine ⟨he.wf h.wf, (he.potential h.wf h.breaks).1, ?_⟩
  have same : SameShape s s' → ∀ i < s'.nextLeft, ∃ t ∈ l, (s'.seg i).pts ⊆ t.pts := by
    intro hu i hi
    rw [hu.nextLeft] at hi
    rw [hu.seg]
    exact h.parts i hi
  cases he with
  | flags h _ => exact same h
  | relation h => exact same h.shape
  | divide i p hi hp hj =>
    obtain ⟨s1, s2, -⟩ := divide_parts h.wf hi hp
    obtain ⟨t, ht, hs⟩ := h.parts i hi
    intro j hj
    rcases Nat.lt_succ_iff_lt_or_eq.mp hj with hj | rfl
    · by_cases hij : j = i
      · subst hij
        exact ⟨t, ht, s1.trans hs⟩
      · rw [divide_seg_other h.wf hi p hj hij]
        exact h.parts j hj
    · exact ⟨t, ht, s2.trans hs⟩

theorem Tame.elems (h : Tame P l s) (he : Elems s s') : Tame P l s' := by
  induction he with
  | refl => exact h
  | tail _ h2 ih => exact ih.elem h2

theorem Tame.pop (h : Tame P l s) (e : Ev) : Tame P l { s with queue := s.queue.erase e } :=
  ⟨pop_wf h.wf e, ⟨h.breaks.start, h.breaks.finish, h.breaks.common⟩, h.parts⟩

theorem Tame.piece (h : Tame P l s) {i : Nat} (hi : i < s.nextLeft) : s.seg i ∈ pieces (↑P) l :=
  ⟨h.wf.nondegenerate hi, h.breaks.start i hi, h.breaks.finish i hi, h.parts i hi⟩

theorem Tame.evStart_mem (h : Tame P l s) {e : Ev} (he : s.Valid e) : s.evStart e ∈ (P : Set (Point K)) := by
  cases e with
  | left i => exact h.breaks.start i he
  | right r =>
    have := h.breaks.finish _ (h.wf.rightLeft r he).1
    rw [h.wf.leftEnd_left he] at this
    exact this

theorem Tame.evEnd_mem (h : Tame P l s) {e : Ev} (he : s.Valid e) : s.evEnd e ∈ (P : Set (Point K)) := by
  cases e with
  | left i => exact h.breaks.finish i he
  | right r => exact h.breaks.start _ (h.wf.rightLeft r he).1

theorem Tame.evStart_ne (h : Tame P l s) {e : Ev} (he : s.Valid e) : s.evStart e ≠ s.evEnd e := by
  cases e with
  | left i => exact (h.wf.lt i he).ne
  | right r =>
    have h1 := h.wf.rightLeft r he
    have := h.wf.lt _ h1.1
    rw [h.wf.leftEnd_left he] at this
    exact this.ne'

end State

namespace eventsQueue

open State

variable {c d : Context K} {P : Finset (Point K)} {l : List (Segment K)} (ag : Agree c d (↑P) l)
  {s : State K}

section

include ag

theorem keyLt_agree (h : Tame P l s) {e e' : Ev} (he : s.Valid e) (he' : s.Valid e') :
    keyLt c s e e' = keyLt d s e e' := by
  unfold keyLt
  rw [ag.orientation _ (h.evStart_mem he) _ (h.evEnd_mem he) _ (h.evEnd_mem he')]

theorem least_agree (h : Tame P l s) {best : Ev} {es : List Ev} (hb : s.Valid best) (hes : ∀ e ∈ es, s.Valid e) :
    least c s best es = least d s best es := by
  induction es generalizing best with
  | nil => rfl
  | cons e es ih =>
    have he := hes e (by simp)
    rw [least, least, keyLt_agree ag h he hb]
    refine ih ?_ fun x hx => hes x (by simp [hx])
    split
    · exact he
    · exact hb

theorem peek?_agree (h : Tame P l s) : peek? c s = peek? d s := by
  have hv : ∀ e ∈ s.queue, s.Valid e := fun e he => h.wf.valid_of_mem he
  unfold peek?
  split
  · rfl
  · next e es hq =>
    rw [hq] at hv
    rw [least_agree ag h (hv e (by simp)) fun x hx => hv x (by simp [hx])]

theorem lt_agree (h : Tame P l s) {i j : Nat} (hi : i < s.nextLeft) (hj : j < s.nextLeft) :
    sweepLine.lt c s i j = sweepLine.lt d s i j := by
  have a := h.breaks.start i hi
  have b := h.breaks.finish i hi
  have a' := h.breaks.start j hj
  have b' := h.breaks.finish j hj
  unfold sweepLine.lt
  simp only [ag.orientation _ a _ b _ a', ag.orientation _ a _ b _ b', ag.orientation _ a' _ b' _ a,
    ag.orientation _ a' _ b' _ b]

theorem line_agree (h : Tame P l s) {i : Nat} (hi : i < s.nextLeft) {line : List Nat}
    (hl : ∀ j ∈ line, j < s.nextLeft) :
    sweepLine.contains c s i line = sweepLine.contains d s i line ∧
    sweepLine.add c s i line = sweepLine.add d s i line ∧
    sweepLine.remove c s i line = sweepLine.remove d s i line ∧
    sweepLine.above c s i line = sweepLine.above d s i line ∧
    (∀ previous, sweepLine.belowFrom c s i previous line = sweepLine.belowFrom d s i previous line) := by
  induction line with
  | nil => exact ⟨rfl, rfl, rfl, rfl, fun _ => rfl⟩
  | cons j line ih =>
    have hj := hl j (by simp)
    obtain ⟨h1, h2, h3, h4, h5⟩ := ih fun k hk => hl k (by simp [hk])
    simp only [sweepLine.contains, sweepLine.add, sweepLine.remove, sweepLine.above, sweepLine.belowFrom,
      lt_agree ag h hi hj, lt_agree ag h hj hi, h1, h2, h3, h4, h5, implies_true, and_self]

theorem divideOverlapping_agree (h : Tame P l s) {i j : Nat} (hi : i < s.nextLeft) (hj : j < s.nextLeft) :
    divideOverlapping c s i j = divideOverlapping d s i j := by
  unfold divideOverlapping
  simp only [keyLt_agree ag h (e := .left j) (e' := .left i) hj hi,
    keyLt_agree ag h (e := .right (s.lefts j).right) (e' := .right (s.lefts i).right) (h.wf.leftRight j hj).1
      (h.wf.leftRight i hi).1]

theorem detectLinear_agree (h : Tame P l s) {i j : Nat} (hi : i < s.nextLeft) (hj : j < s.nextLeft) :
    detectIntersectionLinear c s i j = detectIntersectionLinear d s i j := by
  unfold detectIntersectionLinear
  simp only [ag.relation _ (h.piece hi) _ (h.piece hj), divideOverlapping_agree ag h hi hj]
  split_ifs with k
  · rw [ag.intersection _ (h.piece hi) _ (h.piece hj) k]
  · rfl
  · rfl
  · rfl

theorem detectCompound_agree (h : Tame P l s) {i j : Nat} (hi : i < s.nextLeft) (hj : j < s.nextLeft) :
    detectIntersectionCompound c s i j = detectIntersectionCompound d s i j := by
  have key : ∀ kind : OverlapKind,
      divideOverlapping c ((s.setLeft i (fun e => { e with overlapKind := kind })).setLeft j
        (fun e => { e with overlapKind := kind })) i j =
      divideOverlapping d ((s.setLeft i (fun e => { e with overlapKind := kind })).setLeft j
        (fun e => { e with overlapKind := kind })) i j := by
    intro kind
    refine divideOverlapping_agree ag (h.elem (.flags ?_ ?_)) hi hj
    · refine ⟨rfl, rfl, rfl, rfl, ?_, ?_, ?_, ?_, ?_⟩ <;> intro k <;> simp only [setLeft] <;> split_ifs <;> rfl
    · intro k
      simp only [setLeft]
      split_ifs <;> rfl
  unfold detectIntersectionCompound
  simp only [ag.relation _ (h.piece hi) _ (h.piece hj), divideOverlapping_agree ag h hi hj, key]
  split_ifs with k
  · rw [ag.intersection _ (h.piece hi) _ (h.piece hj) k]
  all_goals rfl

theorem below_agree (h : Tame P l s) {i : Nat} (hi : i < s.nextLeft) {line : List Nat}
    (hl : ∀ j ∈ line, j < s.nextLeft) : sweepLine.below c s i line = sweepLine.below d s i line :=
  (line_agree ag h hi hl).2.2.2.2 none

theorem checkAboveLinear_agree (h : Tame P l s) {i : Nat} (hi : i < s.nextLeft) {above : Option Nat}
    (ha : ∀ a, above = some a → a < s.nextLeft) :
    checkAboveLinear c s i above = checkAboveLinear d s i above := by
  cases above with
  | none => rfl
  | some a => exact detectLinear_agree ag h hi (ha a rfl)

theorem checkBelowLinear_agree (h : Tame P l s) {i : Nat} (hi : i < s.nextLeft) {below : Option Nat}
    (hb : ∀ b, below = some b → b < s.nextLeft) :
    checkBelowLinear c s below i = checkBelowLinear d s below i := by
  cases below with
  | none => rfl
  | some b => exact detectLinear_agree ag h (hb b rfl) hi

theorem checkAbove_agree (h : Tame P l s) {i : Nat} (hi : i < s.nextLeft) {above : Option Nat}
    (ha : ∀ a, above = some a → a < s.nextLeft) : checkAbove c s i above = checkAbove d s i above := by
  cases above with
  | none => rfl
  | some a => simp only [checkAbove, detectCompound_agree ag h hi (ha a rfl)]

theorem checkBelow_agree (hd : d.Exact) (h : Tame P l s) {i : Nat} (hi : i < s.nextLeft) {line : List Nat}
    (hl : ∀ j ∈ line, j < s.nextLeft) {below : Option Nat}
    (hb : ∀ b, below = some b → b < s.nextLeft ∧ b ≠ i) :
    checkBelow c s line below i = checkBelow d s line below i := by
  cases below with
  | none => rfl
  | some b =>
    obtain ⟨b1, b2⟩ := hb b rfl
    have out := detectCompound_outcome hd h.wf b1 hi b2
    simp only [checkBelow, detectCompound_agree ag h b1 hi, bind, Except.bind]
    cases hr : detectIntersectionCompound d s b i with
    | error e => rfl
    | ok r =>
      rw [hr] at out
      have out : Elems s r.1 := out
      simp only [below_agree ag (h.elems out) (lt_of_lt_of_le b1 out.nextLeft_le.1)
        fun j hj => lt_of_lt_of_le (hl j hj) out.nextLeft_le.1]

theorem handle_agree (linear : Bool) (hd : d.Exact) (h : Tame P l s) {line : List Nat} (hl : LineOK s line)
    {event : Ev} (hv : s.Valid event) (hm : ∀ i, event = .left i → i ∉ line) :
    handle linear c s line event = handle linear d s line event := by
  cases event with
  | left i =>
    have hi : i < s.nextLeft := hv
    have him := hm i rfl
    have e1 := (line_agree ag h hi hl.lt).2.1
    set line' := sweepLine.add d s i line with hline'
    have hl' : ∀ j ∈ line', j < s.nextLeft := by
      intro j hj
      rcases sweepLine.mem_of_mem_add hj with rfl | hj
      exacts [hi, hl.lt j hj]
    have e2 := (line_agree ag h hi hl').2.2.2.1
    have e3 := below_agree ag h hi hl'
    have ha : ∀ a, sweepLine.above d s i line' = some a → a < s.nextLeft ∧ a ≠ i := fun a ha =>
      ⟨hl.lt a (sweepLine.above_add him ha), fun e => him (e ▸ sweepLine.above_add him ha)⟩
    have hb : ∀ b, sweepLine.below d s i line' = some b → b < s.nextLeft ∧ b ≠ i := fun b hb =>
      ⟨hl.lt b (sweepLine.below_add him hb), fun e => him (e ▸ sweepLine.below_add him hb)⟩
    cases linear with
    | true =>
      simp only [handle, if_true]
      rw [handleLinear_left, handleLinear_left, e1, ← hline', e2, e3,
        checkAboveLinear_agree ag h hi fun a k => (ha a k).1]
      have out := checkAboveLinear_outcome hd h.wf hi ha
      cases hr : checkAboveLinear d s i (sweepLine.above d s i line') with
      | error e => rfl
      | ok s1 =>
        rw [hr] at out
        have out : Elems s s1 := out
        simp only [Except.bind]
        rw [checkBelowLinear_agree ag (h.elems out) (lt_of_lt_of_le hi out.nextLeft_le.1)
          fun b k => lt_of_lt_of_le (hb b k).1 out.nextLeft_le.1]
    | false =>
      simp only [handle, Bool.false_eq_true, if_false, handleCompound, bind, Except.bind, pure, Except.pure]
      rw [e1, ← hline', e2, e3]
      have e0 := computePosition_elems s (sweepLine.below d s i line') i
      set s0 := computePosition s (sweepLine.below d s i line') i
      have n0 := e0.nextLeft_le.1
      have h0 := h.elems e0
      have ha0 : ∀ a, sweepLine.above d s i line' = some a → a < s0.nextLeft ∧ a ≠ i := fun a k =>
        ⟨lt_of_lt_of_le (ha a k).1 n0, (ha a k).2⟩
      rw [checkAbove_agree ag h0 (lt_of_lt_of_le hi n0) fun a k => (ha0 a k).1]
      have out := checkAbove_outcome hd h0.wf (lt_of_lt_of_le hi n0) ha0
      cases hr : checkAbove d s0 i (sweepLine.above d s i line') with
      | error e => rfl
      | ok s1 =>
        rw [hr] at out
        have out : Elems s0 s1 := out
        have n1 := n0.trans out.nextLeft_le.1
        simp only
        rw [checkBelow_agree ag hd (h0.elems out) (lt_of_lt_of_le hi n1)
          (fun j hj => lt_of_lt_of_le (hl' j hj) n1) fun b k => ⟨lt_of_lt_of_le (hb b k).1 n1, (hb b k).2⟩]
  | right r =>
    have hi : (s.rights r).left < s.nextLeft := (h.wf.rightLeft r hv).1
    obtain ⟨e1, -, e2, e3, -⟩ := line_agree ag h hi hl.lt
    have e4 := below_agree ag h hi hl.lt
    cases linear with
    | true =>
      simp only [handle, if_true, handleLinear, e1, e2, e3, e4]
      split
      · cases ha : sweepLine.above d s (s.rights r).left line with
        | none => rfl
        | some a =>
          cases hb : sweepLine.below d s (s.rights r).left line with
          | none => rfl
          | some b =>
            simp only
            rw [detectLinear_agree ag h (hl.lt b (sweepLine.below_mem hb)) (hl.lt a (sweepLine.above_mem' ha))]
      · rfl
    | false =>
      simp only [handle, Bool.false_eq_true, if_false, handleCompound, e1, e2, e3, e4]
      split
      · cases ha : sweepLine.above d s (s.rights r).left line with
        | none => rfl
        | some a =>
          cases hb : sweepLine.below d s (s.rights r).left line with
          | none => rfl
          | some b =>
            simp only
            rw [detectCompound_agree ag h (hl.lt b (sweepLine.below_mem hb)) (hl.lt a (sweepLine.above_mem' ha))]
      · rfl

end

theorem minBy_congr {f g : Ev → K} {best : Ev} {es : List Ev}
    (h : ∀ e ∈ best :: es, ∀ e' ∈ best :: es, f e < f e' ↔ g e < g e') : minBy f best es = minBy g best es := by
  induction es generalizing best with
  | nil => rfl
  | cons e es ih =>
    have hb : best ∈ best :: e :: es := by simp
    have he : e ∈ best :: e :: es := by simp
    rw [minBy, minBy]
    simp only [h e he best hb]
    refine ih fun x hx y hy => h x ?_ y ?_
    · rcases List.mem_cons.mp hx with rfl | hx
      · split <;> assumption
      · simp [hx]
    · rcases List.mem_cons.mp hy with rfl | hy
      · split <;> assumption
      · simp [hy]

theorem minBy_mem (f : Ev → K) (best : Ev) (es : List Ev) : minBy f best es ∈ best :: es := by
  induction es generalizing best with
  | nil => simp [minBy]
  | cons e es ih =>
    rw [minBy]
    rcases List.mem_cons.mp (ih (if f e < f best then e else best)) with h | h
    · rw [h]; split <;> simp
    · exact List.mem_cons_of_mem _ (List.mem_cons_of_mem _ h)

include ag in
theorem detectCrossingAngles_agree (al : Alike c d ↑P) (h : Tame P l s) {v : Point K} {group : List Ev}
    (hgr : GroupOK s v group) : detectCrossingAngles c s group = detectCrossingAngles d s group := by
  have hg : ∀ e ∈ group, s.Valid e := fun e he => (hgr e he).1
  have hne : ∀ e ∈ group, s.evEnd e ≠ v := fun e he => (hgr e he).2 ▸ (h.evStart_ne (hg e he)).symm
  have key : ∀ x ∈ group, ∀ e ∈ group, ∀ e' ∈ group,
      signedSquaredCosine c s (s.evEnd x) e < signedSquaredCosine c s (s.evEnd x) e' ↔
        signedSquaredCosine d s (s.evEnd x) e < signedSquaredCosine d s (s.evEnd x) e' := by
    intro x hx e he e' he'
    have := al v ((hgr x hx).2 ▸ h.evStart_mem (hg x hx)) _ (h.evEnd_mem (hg x hx)) _ (h.evEnd_mem (hg e he)) _
      (h.evEnd_mem (hg e' he')) (hne x hx) (hne e he) (hne e' he')
    unfold signedSquaredCosine
    rw [(hgr e he).2, (hgr e' he').2]
    exact this
  unfold detectCrossingAngles
  simp only
  split
  · rfl
  · cases group with
    | nil => rfl
    | cons first rest =>
      have hf := hg first (by simp)
      have sub : ∀ x ∈ (first :: rest).filter (fun event => !s.evFromTest event), s.Valid x := fun x hx =>
        hg x (List.mem_of_mem_filter hx)
      cases hq : (first :: rest).filter (fun event => !s.evFromTest event) with
      | nil => rfl
      | cons goal goals =>
        have sub' : ∀ x ∈ (first :: rest).filter (fun event => !s.evFromTest event), x ∈ first :: rest :=
          fun x hx => List.mem_of_mem_filter hx
        rw [hq] at sub sub'
        have hgoal := sub' goal (by simp)
        have vmin : ∀ f : Ev → K, s.Valid (minBy f goal goals) := fun f => sub _ (minBy_mem f goal goals)
        have b2 : ∀ x ∈ first :: rest, minBy (signedSquaredCosine c s (s.evEnd x)) goal goals =
            minBy (signedSquaredCosine d s (s.evEnd x)) goal goals := fun x hx =>
          minBy_congr fun e he e' he' => key x hx e (sub' e he) e' (sub' e' he')
        simp only [b2 _ hgoal, b2 _ (sub' _ (minBy_mem _ goal goals))]
        rw [ag.orientation _ (h.evStart_mem hf) _ (h.evEnd_mem (vmin _)) _ (h.evEnd_mem (vmin _))]
        have b3 : ∀ o, ((first :: rest).filter (fun event => s.evFromTest event)).map (fun testEvent =>
              pointInAngle c (s.evEnd testEvent) (s.evStart first)
                (s.evEnd (minBy (signedSquaredCosine d s (s.evEnd goal)) goal goals))
                (s.evEnd (minBy (signedSquaredCosine d s
                  (s.evEnd (minBy (signedSquaredCosine d s (s.evEnd goal)) goal goals))) goal goals)) o) =
            ((first :: rest).filter (fun event => s.evFromTest event)).map (fun testEvent =>
              pointInAngle d (s.evEnd testEvent) (s.evStart first)
                (s.evEnd (minBy (signedSquaredCosine d s (s.evEnd goal)) goal goals))
                (s.evEnd (minBy (signedSquaredCosine d s
                  (s.evEnd (minBy (signedSquaredCosine d s (s.evEnd goal)) goal goals))) goal goals)) o) := by
          intro o
          refine List.map_congr_left fun e he => ?_
          have he := h.evEnd_mem (hg e (List.mem_of_mem_filter he))
          unfold pointInAngle
          rw [ag.orientation _ (h.evStart_mem hf) _ (h.evEnd_mem (vmin _)) _ he,
            ag.orientation _ (h.evEnd_mem (vmin _)) _ (h.evStart_mem hf) _ he]
        rw [b3]

include ag in
theorem closeGroup_agree {linear : Bool} (al : linear = true → Alike c d ↑P) (h : Tame P l s) {v : Point K}
    {group : List Ev} (hg : GroupOK s v group) : closeGroup linear c s group = closeGroup linear d s group := by
  unfold closeGroup
  split
  · next hl => rw [detectCrossingAngles_agree ag (al hl) h hg]
  · rfl

include ag in
theorem sweepStep_agree {linear : Bool} (al : linear = true → Alike c d ↑P) (hd : d.Exact) {stopX : K}
    {f : Config K} (h : Tame P l f.s) (hi : Inv f) :
    sweepStep linear c stopX f = sweepStep linear d stopX f := by
  unfold sweepStep
  rw [peek?_agree ag h]
  cases hp : peek? d f.s with
  | none => rfl
  | some e =>
    have hq := peek?_mem hp
    have hv := hi.wf.valid_of_mem hq
    obtain ⟨p, hg⟩ := hi.groupOK
    have hw := pop_wf hi.wf e
    have hgp : GroupOK (popped f.s e) p f.group := hg
    have ht := h.pop e
    have hrun : Runs f.s (popped f.s e) := (Runs.refl _).pop e hq
    have ec := closeGroup_agree ag al (s := popped f.s e) ht hgp
    have rels := (closeGroup_spec linear d hw hgp).1
    have hl : ∀ t, Elems (popped f.s e) t → LineOK t f.line := fun t k => (hi.line.of_runs hrun).of_elems k
    have key : ∀ t, Elems (popped f.s e) t → handle linear c t f.line e = handle linear d t f.line e := by
      intro t k
      refine handle_agree ag linear hd (Tame.elems ht k) (hl t k) (k.valid hv) ?_
      rintro i rfl hm
      exact hi.line.notMem i hm hq
    have k1 := key _ (.refl _)
    have k2 := key _ rels.elems
    simp only [popped] at ec k1 k2
    simp only [ec]
    split_ifs
    · rfl
    · rw [k1]
    · rw [k2]

include ag in
theorem sweepLoop_agree {linear : Bool} (al : linear = true → Alike c d ↑P) (hd : d.Exact) {stopX : K} (fuel : Nat)
    {f : Config K} (h : Tame P l f.s) (hi : Inv f) :
    sweepLoop linear c stopX fuel f.s f.line f.start f.group = sweepLoop linear d stopX fuel f.s f.line f.start f.group ∧
    ∀ t, (sweepLoop linear d stopX fuel f.s f.line f.start f.group).2 = .ok t → Tame P l t := by
  induction fuel generalizing f with
  | zero => exact ⟨rfl, fun t ht => by simp [sweepLoop] at ht⟩
  | succ fuel ih =>
    obtain ⟨p, hg⟩ := hi.groupOK
    rw [sweepLoop_succ, sweepLoop_succ, sweepStep_agree ag al hd h hi, closeGroup_agree ag al h hg]
    cases hs : sweepStep linear d stopX f with
    | none =>
      refine ⟨rfl, fun t ht => ?_⟩
      simp only [Except.ok.injEq] at ht
      rw [← ht]
      exact h.elems (closeGroup_spec linear d hi.wf hg).1.elems
    | some q =>
      obtain ⟨ems, r⟩ := q
      cases r with
      | error e => exact ⟨rfl, fun t ht => by simp at ht⟩
      | ok f' =>
        obtain ⟨i1, e, -, i2⟩ := sweepStep_spec hd hi hs
        obtain ⟨j1, j2⟩ := ih (Tame.elems (h.pop e) i2) i1
        exact ⟨by simp only [j1], j2⟩

include ag in
theorem sweep_agree {linear : Bool} (al : linear = true → Alike c d ↑P) (hd : d.Exact) (stopX : K)
    (h : Tame P l s) :
    sweep linear c stopX s = sweep linear d stopX s ∧
    ∀ t, (sweep linear d stopX s).2 = .ok t → Tame P l t := by
  unfold sweep
  rw [peek?_agree ag h]
  exact sweepLoop_agree ag al hd _ (f := initial d s) h (initial_inv d h.wf)

include ag in
theorem peekFromTest_agree (h : Tame P l s) : processing.peekFromTest c s = processing.peekFromTest d s := by
  unfold processing.peekFromTest
  rw [peek?_agree ag h]

end eventsQueue

end Orient
