import Verif.Lemmas.Sweep.GroupOrder
import Verif.Lemmas.Ways

/-! The events of a group are in the order in which their directions are met. -/

set_option linter.unusedSectionVars false

namespace Orient.eventsQueue

variable {K : Type} [Field K] [LinearOrder K] [IsStrictOrderedRing K]

open Segment State

section

variable {ε : K} {P : Finset (Point K)} {s s₀ : State K} {o : Nat → Nat} {line : List Nat}
  {p q : Point K} {l : List (Segment K)}

theorem start_le_of_mem (hw : s.WF) {i : Nat} (hi : i < s.nextLeft) {x : Point K}
    (hx : x ∈ (s.seg i).pts) : (s.lefts i).start ≤ x := hw.lo_seg hi ▸ lo_le hx

theorem le_end_of_mem (hw : s.WF) {i : Nat} (hi : i < s.nextLeft) {x : Point K}
    (hx : x ∈ (s.seg i).pts) : x ≤ s.leftEnd i := hw.hi_seg hi ▸ le_hi hx

/-- In each direction of a segment there is a piece of it. -/
theorem germ_piece (hr : Refines s₀ s o) {j : Nat} (hj : j < s₀.nextLeft) {a : Point K} (ha : a ≠ q)
    (hq : q ∈ (s₀.seg j).pts) (hs : a ∈ (s₀.seg j).pts) :
    ∃ k < s.nextLeft, o k = j ∧ q ∈ (s.seg k).pts ∧ ∃ x ∈ (s.seg k).pts, x ≠ q ∧ SameRay q a x := by
  obtain ⟨u, hu, x, hx, hxa, h1, h2⟩ := exists_germ_of_subset (p := q) (a := a)
    (l := ((List.range s.nextLeft).filter fun i => o i = j).map s.seg) ha.symm (by
      intro z hz
      obtain ⟨i, hi, e, m⟩ := hr.cover j hj z (Segment.pts_subset hq hs hz)
      exact ⟨_, List.mem_map.mpr ⟨i, List.mem_filter.mpr ⟨List.mem_range.mpr hi, by simpa using e⟩, rfl⟩,
        m⟩)
  obtain ⟨k, hk, rfl⟩ := List.mem_map.mp hu
  obtain ⟨k1, k2⟩ := List.mem_filter.mp hk
  exact ⟨k, List.mem_range.mp k1, by simpa using k2, h1, x, h2, hx, sameRay_of_mem hx hxa⟩

/-- A segment of which no piece begins before the point begins there. -/
theorem least_of_pieces (c₀ : Clock ε P s₀) (hr : Refines s₀ s o) (hw : s.WF) {j : Nat}
    (hj : j < s₀.nextLeft) (hq : q ∈ (s₀.seg j).pts)
    (h : ∀ k < s.nextLeft, o k = j → q ∈ (s.seg k).pts → q ≤ (s.lefts k).start) :
    IsLeast (s₀.seg j).pts q := by
  refine ⟨hq, fun a ha => ?_⟩
  by_contra hn
  push Not at hn
  obtain ⟨k, hk, e, mk, x, hx, hne, ray⟩ := germ_piece hr hj hn.ne hq ha
  exact absurd (start_le_of_mem hw hk hx)
    (not_le.mpr ((ray.lt_iff.mp hn).trans_le (h k hk e mk)))

/-- The first event at a point which a piece goes through. -/
theorem jumps_of_passes {context : Context K} (hc : context.Exact)
    (hl : ∀ w, w ∈ l ↔ ∃ j < s₀.nextLeft, w = s₀.seg j) (c₀ : Clock ε P s₀) (hr : Refines s₀ s o)
    (sep : Separate s) (hb : Base ε P s line q) (hR : Rights ε s line q)
    (queued : ∀ x, s.Valid x → s.evStart x = q → x ∈ s.queue) {e : Ev} (hpk : peek? context s = some e)
    (hq : s.evStart e = q) (hp : Passes s q) : Jumps l q (s.evEnd e) := by
  obtain ⟨i, hi, mi, h1, h2⟩ := hp
  have hw := hb.clock.wf
  have notq : ∀ {j : Nat}, (s.lefts j).start < q → Ev.left j ∉ s.queue := fun h hm =>
    absurd (hb.queue _ hm) (not_le.mpr h)
  have hil := hb.mem_line hi (notq h1) h2
  have only : ∀ k < s.nextLeft, (s.lefts k).start < q → q ∈ (s.seg k).pts → k = i := by
    intro k hk k1 k2
    rcases hR.thru i hil mi h2 with ⟨m, hm1, hm2, hm3⟩ | h3
    · exfalso
      have hmn := hw.queueLeft m hm1
      have := hw.lt m hmn
      rw [hm2] at this
      refine sep.not_same hb.clock hi hmn ?_ (h1.trans this) (hm2 ▸ h2) hm3
      rintro rfl
      exact h1.ne hm2
    · by_contra hne
      obtain ⟨a1, a2⟩ := h3 k hk k1 k2
      exact sep.not_same hb.clock hi hk (fun e => hne e.symm) (h1.trans a2) (k1.trans h2) a1
  -- the segments which begin at the point
  have least : ∀ j < s₀.nextLeft, q ∈ (s₀.seg j).pts → j ≠ o i → IsLeast (s₀.seg j).pts q := by
    intro j hj mj hne
    refine least_of_pieces c₀ hr hw hj mj fun k hk e mk => ?_
    by_contra hn
    push Not at hn
    exact hne (by rw [← e, only k hk hn mk])
  -- the event is a left one
  obtain ⟨k, rfl⟩ : ∃ k, e = .left k := by
    cases e with
    | left k => exact ⟨k, rfl⟩
    | right r =>
      exfalso
      have hv : s.Valid (.right r) := hw.valid_of_mem (peek?_mem hpk)
      have hk := (hw.rightLeft r hv).1
      have ek : s.leftEnd (s.rights r).left = q := by rw [hw.leftEnd_left hv]; exact hq
      have := only _ hk (ek ▸ hw.lt _ hk) (by rw [← ek]; exact finish_mem _)
      rw [this] at ek
      exact h2.ne ek.symm
  have hk : k < s.nextLeft := hw.valid_of_mem (peek?_mem hpk)
  have sk : (s.lefts k).start = q := hq
  have lk : q < s.leftEnd k := sk ▸ hw.lt k hk
  have mk : q ∈ (s.seg k).pts := by rw [← sk]; exact start_mem _
  have ok : o k ≠ o i := by
    intro e
    have hki : k ≠ i := by rintro rfl; exact h1.ne sk
    rcases hr.apart k hk i hi hki e with h | h
    · exact absurd (lk.trans_le h) (not_lt.mpr h1.le)
    · exact absurd (h2.trans_le h) (not_lt.mpr sk.le)
  refine ⟨⟨s₀.seg (o i), (hl _).mpr ⟨_, hr.lt i hi, rfl⟩,
    ((hw.inner_iff hi).mpr ⟨mi, h1, h2⟩).of_subset (hr.subset i hi), fun w hw' mw => ?_⟩, ?_, ?_⟩
  · obtain ⟨j, hj, rfl⟩ := (hl w).mp hw'
    by_cases e : j = o i
    · exact .inl (by rw [e])
    · exact .inr (least j hj mw e)
  · exact ⟨_, (hl _).mpr ⟨_, hr.lt k hk, rfl⟩, least _ (hr.lt k hk) (hr.subset k hk mk) ok, s.leftEnd k,
      hr.subset k hk (finish_mem _), lk.ne', .refl _ _⟩
  · rintro b ⟨w, hw', lw, x, hx, hne, ray⟩ hs
    obtain ⟨j, hj, rfl⟩ := (hl w).mp hw'
    obtain ⟨m, hm, rfl, m1, y, m2, m3, ray'⟩ := germ_piece hr hj hne lw.1 hx
    have sm : (s.lefts m).start = q :=
      le_antisymm (start_le_of_mem hw hm m1) (lw.2 (hr.subset m hm (start_mem _)))
    have rm : SameRay q (s.leftEnd m) y := by
      refine sameRay_of_mem m3 ?_
      rw [← sm]; exact m2
    have hs := hs.congr ((ray.symm.trans ray').trans rm.symm) (.refl _ _)
    rcases peek?_sooner hc hw sep hpk _ (queued (.left m) hm sm) with e | e
    · rw [show s.evEnd (.left k) = s.leftEnd m by rw [← e]; rfl] at hs
      exact hs.asymm hs
    · rcases e with e | ⟨-, e⟩
      · rw [hq] at e
        exact e.ne sm.symm
      · rw [hq] at e
        exact hs.asymm e

/-- There is no exception at a point which no piece goes through. -/
theorem not_jumps (hl : ∀ w, w ∈ l ↔ ∃ j < s₀.nextLeft, w = s₀.seg j) (c₀ : Clock ε P s₀)
    (hr : Refines s₀ s o) (hw : s.WF) (sep₀ : Separate s₀) (hn : ¬ Passes s q)
    (good : ∀ i < s.nextLeft, s.leftEnd i = q → Explained s₀ q) (a : Point K) : ¬ Jumps l q a := by
  rintro ⟨⟨v, hv, iv, all⟩, -⟩
  obtain ⟨j, hj, rfl⟩ := (hl v).mp hv
  obtain ⟨m0, m1, m2⟩ := (c₀.wf.inner_iff hj).mp iv
  obtain ⟨k, hk, e, mk, x, hx, hne, ray⟩ := germ_piece hr hj m1.ne m0 (start_mem _)
  have hxq : x < q := ray.lt_iff.mp m1
  have sk := (start_le_of_mem hw hk hx).trans_lt hxq
  have ek : s.leftEnd k = q := by
    refine le_antisymm ?_ (le_end_of_mem hw hk mk)
    by_contra h
    push Not at h
    exact hn ⟨k, hk, mk, sk, h⟩
  have starts : ∀ i < s₀.nextLeft, q ∈ (s₀.seg i).pts → (s₀.lefts i).start < q →
      (s₀.seg i).pts = (s₀.seg j).pts := by
    intro i hi mi hlt
    rcases all _ ((hl _).mpr ⟨i, hi, rfl⟩) mi with h | h
    · exact h
    · exact absurd (h.2 (start_mem _)) (not_le.mpr hlt)
  rcases good k hk ek with ⟨i, hi, ei⟩ | ⟨i, hi, i', hi', hne, h1, h2, h3, h4⟩
  · have := starts i hi (by rw [← ei]; exact finish_mem _) (ei ▸ c₀.wf.lt i hi)
    exact ((show (s₀.seg j).Inner q from iv).of_subset this.symm.subset).2 (.inr ei.symm)
  · refine sep₀ i hi i' hi' hne ?_
    rw [starts i hi h1 h3, starts i' hi' h2 h4, Set.inter_self]
    exact ⟨_, start_mem _, _, finish_mem _, (c₀.wf.lt j hj).ne⟩

/-- What is known of the order of the events of a group. -/
def Ordered (l : List (Segment K)) (s : State K) (p : Point K) (e : Ev) (rest : List Ev) : Prop :=
  rest.Pairwise (fun x y => SweptBefore p (s.evEnd x) (s.evEnd y)) ∧
  (∀ x ∈ rest, ∀ y ∈ s.queue, s.evStart y = p → SweptBefore p (s.evEnd x) (s.evEnd y)) ∧
  (((∀ x, (x ∈ rest ∨ (x ∈ s.queue ∧ s.evStart x = p)) → SweptBefore p (s.evEnd e) (s.evEnd x)) ∧
      ∀ a, ¬ Jumps l p a) ∨ Jumps l p (s.evEnd e))

/-- The invariant. -/
structure Met (l : List (Segment K)) (s₀ : State K) (c : Config K) (p : Point K) : Prop where
  good : ∀ i < c.s.nextLeft, (p < c.s.leftEnd i ∨ c.group = []) → Explained s₀ (c.s.leftEnd i)
  notMem : ∀ x ∈ c.group, x ∉ c.s.queue
  order : c.group = [] ∨ ∃ e rest, c.group = e :: rest ∧ Ordered l c.s p e rest

theorem Ordered.pairwise {group : List Ev} (st : Star s p group) {e : Ev} {rest : List Ev}
    (hg : group = e :: rest) (h : Ordered l s p e rest) :
    group.Pairwise (fun x y => MetBefore l p (s.evEnd x) (s.evEnd y)) := by
  obtain ⟨h1, -, h3⟩ := h
  have hd : ∀ x ∈ rest, e ≠ x := by
    have := st.nodup
    rw [hg] at this
    intro x hx e'
    exact (List.nodup_cons.mp this).1 (e' ▸ hx)
  have hm : ∀ x ∈ rest, ¬ Jumps l p (s.evEnd x) := by
    intro x hx hj
    rcases h3 with h | h
    · exact h.2 _ hj
    · exact st.rays e (by rw [hg]; exact List.mem_cons_self ..) x
        (by rw [hg]; exact List.mem_cons_of_mem _ hx) (hd x hx) (h.unique hj)
  rw [hg, List.pairwise_cons]
  refine ⟨fun x hx => ⟨hm x hx, ?_⟩, h1.imp_of_mem fun _ hy h => ⟨hm _ hy, .inr h⟩⟩
  rcases h3 with h | h
  · exact .inr (h.1 x (.inl hx))
  · exact .inl h

theorem Met.step {linear : Bool} {context : Context K} (hc : context.Exact) {stopX : K}
    {c d : Config K} (hi : Inv c) (hl : ∀ w, w ∈ l ↔ ∃ j < s₀.nextLeft, w = s₀.seg j)
    (c₀ : Clock ε P s₀) (hr : Runs s₀ c.s) (sep₀ : Separate s₀) {ems ems' : List (Emitted K)}
    (tr : Track ε P c ems p) (m : Met l s₀ c p)
    (h : sweepStep linear context stopX c = some (ems', .ok d)) {p' : Point K}
    (hp' : d.start = some p') : Met l s₀ d p' := by
  obtain ⟨e, t, it, hh, hel, -⟩ := sweepStep_ok hc hi h
  obtain ⟨g1, g2⟩ := it.groupOK hi
  have hpk := it.peek
  have hmem := peek?_mem hpk
  have hnot := it.notMem hi
  have hb := tr.moving.base
  have hw := hi.wf
  obtain ⟨q, hq⟩ : ∃ q, c.s.evStart e = q := ⟨_, rfl⟩
  have shape := (it.rels hi).shape
  have ct : Clock ε P t := (hb.clock.pop e).elems (it.rels hi).elems
  rw [hq] at g1 g2
  rw [g1] at hp'
  obtain rfl := Option.some.inj hp'
  obtain ⟨o, ho⟩ := hr.refines c₀.wf
  have sep : Separate c.s := sep₀.refines ho hw
  have sepp : Separate (popped c.s e) := sep
  have sept := sepp.shape shape
  have evalid : t.Valid e := it.valid hi
  have hpq : p ≤ q := hq ▸ hb.queue e hmem
  have hall : ∀ x ∈ c.s.queue, q ≤ c.s.evStart x := hq ▸ peek?_le hpk
  -- the ends and what holds of a state and of the next one
  have tend : ∀ x, t.evEnd x = c.s.evEnd x := by
    intro x
    cases x with
    | left i => exact shape.leftEnd i
    | right i => simp only [State.evEnd, shape.rights, shape.start]; rfl
  have tstart : ∀ x, t.evStart x = c.s.evStart x := fun x => SameShape.evStart shape x
  have tvalid : ∀ x, t.Valid x → c.s.Valid x := by
    intro x hv
    cases x with
    | left i => exact (show i < c.s.nextLeft from shape.nextLeft ▸ hv)
    | right i => exact (show i < c.s.nextRight from shape.nextRight ▸ hv)
  have validt : ∀ x, c.s.Valid x → t.Valid x := fun x hv =>
    SameShape.valid shape (s := popped c.s e) (by cases x <;> exact hv)
  have tqueue : ∀ x ∈ t.queue, x ∈ c.s.queue := by
    intro x hx
    rw [shape.queue] at hx
    exact List.mem_of_mem_erase hx
  have ray : ∀ x, c.s.Valid x → c.s.evStart x = q → SameRay q (c.s.evEnd x) (d.s.evEnd x) := by
    intro x hv hx
    have := Elems.evEnd_ray hel ct.wf (validt x hv)
    rwa [tstart, tend, hx] at this
  have hot : Refines s₀ t o := Refines.shape (Refines.pop ho _) shape
  have good' : ∀ i < d.s.nextLeft, (q < d.s.leftEnd i ∨ d.group = []) → Explained s₀ (d.s.leftEnd i) := by
    have hm : Moving ε P c.s c.line q := by
      rcases hpq.lt_or_eq with hlt | rfl
      · exact (tr.moving.advance hlt hall ⟨e, hmem, hq⟩).1
      · exact tr.moving
    have hd : d.group ≠ [] := by
      rcases it.closed with ⟨-, -, -, -, hg⟩ | ⟨-, -, -, -, hg⟩ <;> rw [hg] <;> simp
    intro i hi h
    refine handle_ends hc hm.base hmem hq shape sept hh (Q := fun x => q < x → Explained s₀ x) ?_ ?_ i hi
      (h.resolve_right hd)
    · intro a ha b hb' hab sa sb x hxa hxb hlt
      have la := hot.lt a ha
      have lb := hot.lt b hb'
      have before : ∀ i < t.nextLeft, (t.lefts i).start ≤ q → (s₀.lefts (o i)).start < x := fun i hi hs =>
        (start_le_of_mem c₀.wf (hot.lt i hi) (hot.subset i hi (start_mem _))).trans_lt
          (lt_of_le_of_lt hs hlt)
      refine .inr ⟨o a, la, o b, lb, fun e => ?_, hot.subset a ha hxa, hot.subset b hb' hxb,
        before a ha sa, before b hb' sb⟩
      have xa := le_end_of_mem ct.wf ha hxa
      have xb := le_end_of_mem ct.wf hb' hxb
      rcases hot.apart a ha b hb' hab e with h | h
      · exact absurd ((xa.trans h).trans sb) (not_le.mpr hlt)
      · exact absurd ((xb.trans h).trans sa) (not_le.mpr hlt)
    · intro i hi hlt
      rw [shape.leftEnd] at hlt ⊢
      exact m.good i (shape.nextLeft ▸ hi) (.inl (hpq.trans_lt hlt))
  -- the first event at the point
  have first : ∀ _ : c.group = [] ∨ p < q, d.group = [e] → Ordered l d.s q e [] := by
    intro hor hg
    have hm : Moving ε P c.s c.line q ∧ Rights ε c.s c.line q ∧
        ∀ x, c.s.Valid x → c.s.evStart x = q → x ∈ c.s.queue := by
      rcases hpq.lt_or_eq with hlt | rfl
      · obtain ⟨a1, a2⟩ := tr.moving.advance hlt hall ⟨e, hmem, hq⟩
        refine ⟨a1, a2, fun x hv hx => ?_⟩
        by_contra hn
        exact absurd (hb.popped x hv hn) (not_le.mpr (hx ▸ hlt))
      · have hg := hor.resolve_right (lt_irrefl _)
        have queued : ∀ x, c.s.Valid x → c.s.evStart x = p → x ∈ c.s.queue := by
          intro x hv hx
          by_contra hn
          have := tr.full x hv hn hx
          rw [hg] at this
          cases this
        refine ⟨tr.moving, ?_, queued⟩
        rcases tr.moving.phase with h | h
        · exact h
        · obtain ⟨k, hk, hk'⟩ := h.some
          exact absurd (queued (.left k) (hb.lt hk) hk') ((hb.active k).mp hk).2.1
    obtain ⟨hm, hR, queued⟩ := hm
    have er := ray e (tvalid e evalid) hq
    refine ⟨List.Pairwise.nil, by simp, ?_⟩
    by_cases hp : Passes c.s q
    · exact .inr ((jumps_of_passes hc hl c₀ ho sep hm.base hR queued hpk hq hp).congr er)
    · left
      refine ⟨?_, not_jumps hl c₀ ho hw sep₀ hp fun i hi e => ?_⟩
      · rintro x (hx | ⟨hx, sx⟩)
        · cases hx
        · have wd := hel.wf ct.wf
          have hpt : ¬ Passes t q := fun h => hp ((Passes.shape shape).mp h)
          have vx := (Elems.no_new hel ct.wf hpt).2 x (wd.valid_of_mem hx) sx
          have xt : x ∈ t.queue := by
            by_contra hn
            exact Elems.not_mem hel vx hn hx
          have sx' : c.s.evStart x = q := by
            rw [← tstart, ← (hel.evStart ct.wf vx).1]; exact sx
          rcases peek?_sooner hc hw sep hpk x (tqueue x xt) with e | e
          · exact absurd (e ▸ xt) hnot
          · rcases e with e | ⟨-, e⟩
            · rw [hq, sx'] at e; exact absurd e (lt_irrefl _)
            · rw [hq] at e
              exact e.congr er (ray x (tvalid x vx) sx')
      · rw [← e]
        refine m.good i hi (hor.symm.imp (fun h => ?_) id)
        rw [e]; exact h
  -- a further event at the point
  have further : ∀ e1 rest, c.group = e1 :: rest → p = q → Ordered l c.s p e1 rest →
      Ordered l d.s q e1 (rest ++ [e]) := by
    rintro e1 rest hg rfl ⟨o1, o2, o3⟩
    have hgr := hi.group _ tr.start
    obtain ⟨v1, s1⟩ := hgr e1 (by rw [hg]; exact List.mem_cons_self ..)
    have hp := tr.moving.not_passes sep v1 s1 (m.notMem e1 (by rw [hg]; exact List.mem_cons_self ..))
    have hpt : ¬ Passes t p := fun h => hp ((Passes.shape shape).mp h)
    have wd := hel.wf ct.wf
    have old : ∀ x ∈ d.s.queue, d.s.evStart x = p → x ∈ c.s.queue ∧ c.s.evStart x = p ∧
        c.s.Valid x ∧ SweptBefore p (c.s.evEnd e) (c.s.evEnd x) := by
      intro x hx sx
      have vx := (Elems.no_new hel ct.wf hpt).2 x (wd.valid_of_mem hx) sx
      have xt : x ∈ t.queue := by
        by_contra hn
        exact Elems.not_mem hel vx hn hx
      have sx' : c.s.evStart x = p := by
        rw [← tstart, ← (hel.evStart ct.wf vx).1]; exact sx
      refine ⟨tqueue x xt, sx', tvalid x vx, ?_⟩
      rcases peek?_sooner hc hw sep hpk x (tqueue x xt) with e | e
      · exact absurd (e ▸ xt) hnot
      · rcases e with e | ⟨-, e⟩
        · rw [hq, sx'] at e; exact absurd e (lt_irrefl _)
        · rwa [hq] at e
    have r1 := ray e1 v1 s1
    have re := ray e (tvalid e evalid) hq
    have rr : ∀ x ∈ rest, SameRay p (c.s.evEnd x) (d.s.evEnd x) := fun x hx => by
      obtain ⟨a, b⟩ := hgr x (by rw [hg]; exact List.mem_cons_of_mem _ hx)
      exact ray x a b
    refine ⟨?_, ?_, ?_⟩
    · rw [List.pairwise_append]
      refine ⟨o1.imp_of_mem fun hx hy h => h.congr (rr _ hx) (rr _ hy), List.pairwise_singleton _ _,
        fun x hx y hy => ?_⟩
      rw [List.mem_singleton.mp hy]
      exact (o2 x hx e hmem hq).congr (rr x hx) re
    · intro x hx y hy sy
      obtain ⟨y1, y2, y3, y4⟩ := old y hy sy
      rcases List.mem_append.mp hx with hx | hx
      · exact (o2 x hx y y1 y2).congr (rr x hx) (ray y y3 y2)
      · rw [List.mem_singleton.mp hx]
        exact y4.congr re (ray y y3 y2)
    · rcases o3 with ⟨k1, k2⟩ | k
      · refine .inl ⟨?_, k2⟩
        rintro x (hx | ⟨hx, sx⟩)
        · rcases List.mem_append.mp hx with hx | hx
          · exact (k1 x (.inl hx)).congr r1 (rr x hx)
          · rw [List.mem_singleton.mp hx]
            exact (k1 e (.inr ⟨hmem, hq⟩)).congr r1 re
        · obtain ⟨y1, y2, y3, y4⟩ := old x hx sx
          exact (k1 x (.inr ⟨y1, y2⟩)).congr r1 (ray x y3 y2)
      · exact .inr (k.congr r1)
  rcases it.closed with ⟨hs, -, ht, -, hg⟩ | ⟨hs, -, ht, -, hg⟩
  · rw [hq, tr.start] at hs
    obtain rfl := Option.some.inj hs
    refine ⟨good', fun x hx => ?_, .inr ?_⟩
    · rw [hg, List.mem_append, List.mem_singleton] at hx
      rcases hx with hx | rfl
      · exact Elems.not_mem hel (validt x ((hi.group _ tr.start) x hx).1)
          fun hm => m.notMem x hx (tqueue x hm)
      · exact Elems.not_mem hel evalid hnot
    · rcases m.order with hg' | ⟨e1, rest, hg', ho⟩
      · rw [hg', List.nil_append] at hg
        exact ⟨e, [], hg, first (.inl hg') hg⟩
      · refine ⟨e1, rest ++ [e], by rw [hg, hg']; rfl, further e1 rest hg' rfl ho⟩
  · rw [hq, tr.start] at hs
    have hlt : p < q := lt_of_le_of_ne hpq fun e => hs (congrArg some e.symm)
    refine ⟨good', fun x hx => ?_, .inr ⟨e, [], hg, first (.inr hlt) hg⟩⟩
    rw [hg, List.mem_singleton] at hx
    subst hx
    exact Elems.not_mem hel evalid hnot

theorem Reaches.met {linear : Bool} {context : Context K} (hc : context.Exact) {stopX : K} {s : State K}
    (h : s.Fresh) (c : Clock ε P s) (hcl : ¬ Clash s) (hl : ∀ w, w ∈ l ↔ ∃ j < s.nextLeft, w = s.seg j)
    (sep : Separate s) {e : Ev} (he : peek? context s = some e)
    {d : Config K} {ems : List (Emitted K)}
    (hr : Reaches linear context stopX (initial context s) ems d) {p : Point K} (hp : d.start = some p) :
    Met l s d p := by
  induction hr generalizing p with
  | refl => exact ⟨fun i hi _ => .inl ⟨i, hi, rfl⟩, by simp [initial], .inl rfl⟩
  | tail h1 h2 ih =>
    obtain ⟨q, tr, -⟩ := h1.track hc h c hcl he
    obtain ⟨hi, hruns⟩ := h1.inv hc (initial_inv context h.wf)
    exact (ih tr.start).step hc hi hl c hruns sep tr h2 hp

end

end Orient.eventsQueue
