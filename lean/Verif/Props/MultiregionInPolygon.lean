import Verif.Props.PolygonRelations
import Verif.Props.Itself

/-! C26: the relation of a multiregion to a polygon. -/

set_option linter.unusedSectionVars false

namespace Orient.Props

variable {K : Type} [Field K] [LinearOrder K] [IsStrictOrderedRing K]

/-- The relation of two regions. -/
def RegionRel (a b : Contour K) (r : Relation) : Prop :=
  CompoundRel a.interior a.pts a.exterior b.interior b.pts b.exterior r

/-- What the loop over the regions knows about them: those inside of the border are collected, the others
are outside of it. -/
structure Sorted (b : Contour K) (m S Q : List (Contour K)) (noneTouch : Bool) : Prop where
  inside : S.Sublist m
  outside : Q.Sublist m
  all : ∀ c ∈ m, c ∈ S ∨ c ∈ Q
  length : S.length + Q.length = m.length
  inner : ∀ c ∈ S, RegionRel c b .within ∨ RegionRel c b .enclosed
  outer : ∀ c ∈ Q, RegionRel c b .disjoint ∨ RegionRel c b .touch
  apart : noneTouch = true → ∀ c ∈ m, RegionRel c b .within ∨ RegionRel c b .disjoint
  touch : noneTouch = false → ∃ c ∈ m, RegionRel c b .enclosed ∨ RegionRel c b .touch

theorem Sorted.outer_cons {b c : Contour K} {m S Q : List (Contour K)} {nt : Bool}
    (h : Sorted b m S Q nt) {r : Relation} (hr : r = .disjoint ∨ r = .touch) (hc : RegionRel c b r) :
    Sorted b (c :: m) S (c :: Q) (decide (r = .disjoint) && nt) := by
  refine ⟨h.inside.cons _, h.outside.cons_cons _, ?_, ?_, h.inner, ?_, ?_, ?_⟩
  · intro d hd
    rcases List.mem_cons.mp hd with rfl | hd
    · exact .inr List.mem_cons_self
    · exact (h.all d hd).imp_right (List.mem_cons_of_mem _)
  · have := h.length
    simp only [List.length_cons]; omega
  · intro d hd
    rcases List.mem_cons.mp hd with rfl | hd
    · rcases hr with rfl | rfl
      · exact .inl hc
      · exact .inr hc
    · exact h.outer d hd
  · intro e d hd
    rw [Bool.and_eq_true, decide_eq_true_eq] at e
    rcases List.mem_cons.mp hd with rfl | hd
    · exact .inr (e.1 ▸ hc)
    · exact h.apart e.2 d hd
  · intro e
    rcases hr with rfl | rfl
    · obtain ⟨d, hd, h'⟩ := h.touch (by simpa using e)
      exact ⟨d, List.mem_cons_of_mem _ hd, h'⟩
    · exact ⟨c, List.mem_cons_self, .inr hc⟩

theorem Sorted.inner_cons {b c : Contour K} {m S Q : List (Contour K)} {nt : Bool}
    (h : Sorted b m S Q nt) {r : Relation} (hr : r = .within ∨ r = .enclosed) (hc : RegionRel c b r) :
    Sorted b (c :: m) (c :: S) Q (decide (r = .within) && nt) := by
  refine ⟨h.inside.cons_cons _, h.outside.cons _, ?_, ?_, ?_, h.outer, ?_, ?_⟩
  · intro d hd
    rcases List.mem_cons.mp hd with rfl | hd
    · exact .inl List.mem_cons_self
    · exact (h.all d hd).imp_left (List.mem_cons_of_mem _)
  · have := h.length
    simp only [List.length_cons]; omega
  · intro d hd
    rcases List.mem_cons.mp hd with rfl | hd
    · rcases hr with rfl | rfl
      · exact .inl hc
      · exact .inr hc
    · exact h.inner d hd
  · intro e d hd
    rw [Bool.and_eq_true, decide_eq_true_eq] at e
    rcases List.mem_cons.mp hd with rfl | hd
    · exact .inl (e.1 ▸ hc)
    · exact h.apart e.2 d hd
  · intro e
    rcases hr with rfl | rfl
    · obtain ⟨d, hd, h'⟩ := h.touch (by simpa using e)
      exact ⟨d, List.mem_cons_of_mem _ hd, h'⟩
    · exact ⟨c, List.mem_cons_self, .inl hc⟩

/-- The outcomes of the loop over the regions. -/
def Looped (b : Contour K) (m : List (Contour K)) (nt : Bool) (subs : List (Contour K))
    (x : Py (Relation ⊕ (Bool × List (Contour K)))) : Prop :=
  (∃ c ∈ m, ∃ r, RegionRel c b r ∧
    ((x = .ok (.inl r) ∧ (r = .overlap ∨ r = .cover ∨ r = .encloses)) ∨
      (x = .ok (.inl .encloses) ∧ r = .equal))) ∨
  ∃ S Q nt', Sorted b m S Q nt' ∧ x = .ok (.inr (nt && nt', subs ++ S))

theorem Looped.cons {b c : Contour K} {m : List (Contour K)} {nt nt' : Bool} {subs subs' : List (Contour K)}
    {x : Py (Relation ⊕ (Bool × List (Contour K)))} (h : Looped b m nt' subs' x)
    (k : ∀ S Q n, Sorted b m S Q n → ∃ S' Q' n', Sorted b (c :: m) S' Q' n' ∧
      (nt' && n, subs' ++ S) = (nt && n', subs ++ S')) : Looped b (c :: m) nt subs x := by
  rcases h with ⟨d, hd, x⟩ | ⟨S, Q, n, hs, x⟩
  · exact .inl ⟨d, List.mem_cons_of_mem _ hd, x⟩
  · obtain ⟨S', Q', n', hs', e'⟩ := k S Q n hs
    exact .inr ⟨S', Q', n', hs', by rw [x, e']⟩

theorem relateMultiregionLoop_spec {context : Context K} (hc : context.Exact) {b : Contour K}
    (hb : b.Simple) (m : List (Contour K)) (hm : ∀ c ∈ m, Contour.Simple c) (nt : Bool)
    (subs : List (Contour K)) :
    Looped b m nt subs (polygon.relateMultiregionLoop b (context.contourBox b) context m nt subs) := by
  induction m generalizing nt subs with
  | nil =>
    refine .inr ⟨[], [], true, ⟨.slnil, .slnil, by simp, rfl, by simp, by simp, by simp, by simp⟩, ?_⟩
    simp [polygon.relateMultiregionLoop]
  | cons c m ih =>
    obtain ⟨r, hr, h⟩ := C32_region_in_region hc (hm c List.mem_cons_self) hb
    have hr : region.relateRegionBoxed b c (context.contourBox b) (context.contourBox c) context = .ok r :=
      hr
    have ih := ih fun d hd => hm d (List.mem_cons_of_mem _ hd)
    rw [polygon.relateMultiregionLoop, hr]
    simp only [bind, Except.bind, pure, Except.pure]
    cases r
    case disjoint =>
      exact (ih nt subs).cons fun S Q n hs => ⟨S, c :: Q, _, hs.outer_cons (.inl rfl) h, by simp⟩
    case touch =>
      exact (ih false subs).cons fun S Q n hs => ⟨S, c :: Q, _, hs.outer_cons (.inr rfl) h, by simp⟩
    case within =>
      exact (ih _ _).cons fun S Q n hs => ⟨c :: S, Q, _, hs.inner_cons (.inl rfl) h, by simp⟩
    case enclosed =>
      exact (ih _ _).cons fun S Q n hs => ⟨c :: S, Q, _, hs.inner_cons (.inr rfl) h, by simp⟩
    case overlap => exact .inl ⟨c, List.mem_cons_self, _, h, .inl ⟨rfl, by simp⟩⟩
    case cover => exact .inl ⟨c, List.mem_cons_self, _, h, .inl ⟨rfl, by simp⟩⟩
    case encloses => exact .inl ⟨c, List.mem_cons_self, _, h, .inl ⟨rfl, by simp⟩⟩
    case equal => exact .inl ⟨c, List.mem_cons_self, _, h, .inr ⟨rfl, rfl⟩⟩
    case composite => exact absurd h ((hm c List.mem_cons_self).not_composite hb)
    case component => exact absurd h ((hm c List.mem_cons_self).not_component hb)
    case cross => exact h.elim

theorem multiregion_parts {m S Q : List (Contour K)} (inside : S.Sublist m) (outside : Q.Sublist m)
    (all : ∀ c ∈ m, c ∈ S ∨ c ∈ Q) :
    Multiregion.interior m = Multiregion.interior S ∪ Multiregion.interior Q ∧
    Multiregion.pts m = Multiregion.pts S ∪ Multiregion.pts Q ∧
    Multiregion.exterior m = Multiregion.exterior S ∩ Multiregion.exterior Q := by
  refine ⟨?_, ?_, ?_⟩
  · ext x
    constructor
    · rintro ⟨c, hc, hx⟩
      rcases all c hc with h | h
      · exact .inl ⟨c, h, hx⟩
      · exact .inr ⟨c, h, hx⟩
    · rintro (⟨c, hc, hx⟩ | ⟨c, hc, hx⟩)
      · exact ⟨c, inside.subset hc, hx⟩
      · exact ⟨c, outside.subset hc, hx⟩
  · ext x
    constructor
    · rintro ⟨c, hc, hx⟩
      rcases all c hc with h | h
      · exact .inl ⟨c, h, hx⟩
      · exact .inr ⟨c, h, hx⟩
    · rintro (⟨c, hc, hx⟩ | ⟨c, hc, hx⟩)
      · exact ⟨c, inside.subset hc, hx⟩
      · exact ⟨c, outside.subset hc, hx⟩
  · ext x
    constructor
    · intro hx
      exact ⟨fun c hc => hx c (inside.subset hc), fun c hc => hx c (outside.subset hc)⟩
    · rintro ⟨h1, h2⟩ c hc
      rcases all c hc with h | h
      · exact h1 c h
      · exact h2 c h

theorem RegionRel.enclosed_or {a b : Contour K} (h : RegionRel a b .within ∨ RegionRel a b .enclosed) :
    a.interior ⊆ b.interior ∧ a.pts ⊆ b.interior ∪ b.pts := by
  rcases h with h | h
  · have h : a.interior ∪ a.pts ⊆ b.interior := h
    exact ⟨fun x hx => h (.inl hx), fun x hx => .inl (h (.inr hx))⟩
  · exact ⟨h.1, h.2.1⟩

theorem RegionRel.outer_or {a b : Contour K} (h : RegionRel a b .disjoint ∨ RegionRel a b .touch) :
    (a.interior ∪ a.pts) ∩ (b.interior ∪ b.pts) ⊆ a.pts ∩ b.pts := by
  rcases h with h | h
  · have h : (a.interior ∪ a.pts) ∩ (b.interior ∪ b.pts) = ∅ := h
    rw [h]; exact Set.empty_subset _
  · exact h.2

/-- C26: `multiregion_in_polygon` always answers for a valid multiregion and a valid polygon with a connected
interior, and the answer is the relation of the interiors and the boundaries. -/
theorem C26_multiregion_in_polygon {context : Context K} (hc : context.Exact) {m : Multiregion K}
    {g : Polygon K} (hm : Multiregion.Valid m) (hg : g.Valid) (hcn : g.holes = [] ∨ g.Connected) :
    ∃ r, planar.multiregionInPolygon m g context = .ok r ∧
      CompoundRel (Multiregion.interior m) (Multiregion.pts m) (Multiregion.exterior m)
        g.interior g.pts g.exterior r := by
  unfold planar.multiregionInPolygon polygon.relateMultiregion
  by_cases hne : g.holes = []
  · obtain ⟨e1, e2, e3⟩ := Polygon.no_holes hne
    obtain ⟨r, hr, h⟩ := region_in_multiregion hc hg.border hm
    rw [e1, e2, e3]
    exact ⟨r.complement, by simp [hne, hr, bind, Except.bind, pure, Except.pure], h.swap⟩
  have hcn := hcn.resolve_left hne
  have nh := multiregion_nonempty hg.holes hne
  have hd := hg.holed
  have sb := hg.border.split
  obtain ⟨d, hd'⟩ := List.exists_mem_of_ne_nil _ hne
  obtain ⟨w, w1, w2⟩ := hg.hole_meets hd'
  have through : ∀ c ∈ m, (g.interior ∩ Contour.interior c).Nonempty →
      (g.interior ∩ Contour.exterior c).Nonempty →
      (Contour.pts c ∩ g.interior).Nonempty ∧ (Multiregion.exterior m ∩ g.interior).Nonempty := by
    intro c hcm h1 h2
    obtain ⟨z, z1, z2⟩ := hg.meets hcn h1 h2
    exact ⟨⟨z, z1, z2⟩, ((hm.near hg.areal ⟨c, hcm, z1⟩).1 z2).2⟩
  rcases relateMultiregionLoop_spec hc hg.border m hm.simple true [] with
    ⟨c, hcm, r, h, hr⟩ | ⟨S, Q, nt, hs, hr⟩
  · have hcs := hm.simple c hcm
    rcases hr with ⟨hr, rfl | rfl | rfl⟩ | ⟨hr, rfl⟩
    · refine ⟨.overlap, by simp [hne, hr, bind, Except.bind, pure, Except.pure], ?_⟩
      obtain ⟨h1, h2, h3⟩ := h
      obtain ⟨z, z1, z2⟩ := hcs.meets_inside h1 h2
      obtain ⟨v, v1, v2⟩ := hcs.meets_outside hg.border h3
      have k1 := ((hg.near hcs.areal (.inl z1)).1 z2).1
      have k2 := (hg.near hcs.areal (.inl v1)).2 v2
      obtain ⟨-, k3⟩ := through c hcm k1 k2
      obtain ⟨x, x1, x2⟩ := k1
      obtain ⟨y, y1, y2⟩ := h2
      exact ⟨⟨x, ⟨c, hcm, x2⟩, x1⟩, ⟨y, ⟨c, hcm, y1⟩, .inl y2⟩, k3⟩
    · refine ⟨.cover, by simp [hne, hr, bind, Except.bind, pure, Except.pure], ?_⟩
      have h : g.border.interior ∪ g.border.pts ⊆ Contour.interior c := h
      rintro x (hx | hx | hx)
      · exact ⟨c, hcm, h (.inl hx.1)⟩
      · exact ⟨c, hcm, h (.inr hx)⟩
      · exact ⟨c, hcm, h (hd.inside x hx)⟩
    · refine ⟨.encloses, by simp [hne, hr, bind, Except.bind, pure, Except.pure], ?_⟩
      obtain ⟨h1, h2, -, y, y1, y2⟩ := h
      have inn : ∀ x ∈ g.border.interior, x ∈ Multiregion.interior m := fun x hx => ⟨c, hcm, h1 hx⟩
      have bor : ∀ x ∈ g.border.pts, x ∈ Multiregion.interior m ∪ Multiregion.pts m := fun x hx =>
        (h2 hx).imp (fun h => ⟨c, hcm, h⟩) fun h => ⟨c, hcm, h⟩
      refine ⟨fun x hx => inn x hx.1, ?_, ⟨w, .inr ⟨d, hd', w1⟩, inn w w2⟩, y, ⟨c, hcm, y1⟩, .inl y2⟩
      rintro x (hx | hx)
      · exact bor x hx
      · exact (hd.inside x hx).elim (fun h => .inl (inn x h)) (bor x)
    · refine ⟨.encloses, by simp [hne, hr, bind, Except.bind, pure, Except.pure], ?_⟩
      obtain ⟨h1, h2⟩ := h
      obtain ⟨y, hy⟩ := hg.border.exists_mem
      have inn : ∀ x ∈ g.border.interior, x ∈ Multiregion.interior m := fun x hx =>
        ⟨c, hcm, by rwa [h1]⟩
      have bor : ∀ x ∈ g.border.pts, x ∈ Multiregion.pts m := fun x hx => ⟨c, hcm, by rwa [h2]⟩
      refine ⟨fun x hx => inn x hx.1, ?_, ⟨w, .inr ⟨d, hd', w1⟩, inn w w2⟩, y, bor y hy, .inl hy⟩
      rintro x (hx | hx)
      · exact .inr (bor x hx)
      · exact (hd.inside x hx).elim (fun h => .inl (inn x h)) fun h => .inr (bor x h)
  · obtain ⟨e1, e2, e3⟩ := multiregion_parts hs.inside hs.outside hs.all
    have hS := hm.sublist hs.inside
    have hQ := hm.sublist hs.outside
    have qi : ∀ x, x ∈ g.border.interior ∨ x ∈ g.border.pts →
        x ∈ Multiregion.interior Q ∨ x ∈ Multiregion.pts Q → x ∈ g.border.pts ∧ x ∈ Multiregion.pts Q := by
      rintro x hx (⟨c, hcm, h⟩ | ⟨c, hcm, h⟩)
      · have := RegionRel.outer_or (hs.outer c hcm) ⟨.inl h, hx⟩
        exact ⟨this.2, c, hcm, this.1⟩
      · have := RegionRel.outer_or (hs.outer c hcm) ⟨.inr h, hx⟩
        exact ⟨this.2, c, hcm, this.1⟩
    have touch : if nt then ∀ x, x ∈ Multiregion.pts S ∨ x ∈ Multiregion.pts Q → x ∉ g.border.pts
        else ∃ x, (x ∈ Multiregion.pts S ∨ x ∈ Multiregion.pts Q) ∧ x ∈ g.border.pts := by
      have eq : ∀ x, (x ∈ Multiregion.pts S ∨ x ∈ Multiregion.pts Q) ↔ x ∈ Multiregion.pts m := fun x => by
        rw [e2]; rfl
      simp only [eq]
      cases hnt : nt
      · obtain ⟨c, hcm, h⟩ := hs.touch hnt
        have : (Contour.pts c ∩ g.border.pts).Nonempty := by
          rcases h with h | h
          · exact h.2.2.2
          · exact h.1
        obtain ⟨x, x1, x2⟩ := this
        exact ⟨x, ⟨c, hcm, x1⟩, x2⟩
      · rintro x ⟨c, hcm, hx⟩ hx'
        rcases hs.apart hnt c hcm with h | h
        · have h : Contour.interior c ∪ Contour.pts c ⊆ g.border.interior := h
          exact sb.ib x (h (.inr hx)) hx'
        · have h : (Contour.interior c ∪ Contour.pts c) ∩ (g.border.interior ∪ g.border.pts) = ∅ := h
          exact Set.eq_empty_iff_forall_notMem.mp h x ⟨.inr hx, .inr hx'⟩
    have hr' : polygon.relateMultiregionLoop g.border (context.contourBox g.border) context m true [] =
        .ok (.inr (nt, S)) := by simpa using hr
    simp only [hr', if_neg hne, bind, Except.bind, pure, Except.pure]
    rw [e1, e2, e3]
    by_cases hSe : S = []
    · subst hSe
      refine ⟨if nt then .disjoint else .touch, by simp, ?_⟩
      have n1 : Multiregion.interior ([] : List (Contour K)) = ∅ := by ext x; simp [Multiregion.interior]
      have n2 : Multiregion.pts ([] : List (Contour K)) = ∅ := by ext x; simp [Multiregion.pts]
      rw [n1, n2]
      have qi' : ∀ x, (x ∈ g.interior ∨ x ∈ g.pts) → x ∈ Multiregion.interior Q ∨ x ∈ Multiregion.pts Q →
          x ∈ g.border.pts ∧ x ∈ Multiregion.pts Q := by
        rintro x (hx | hx | hx) h
        · exact qi x (.inl hx.1) h
        · exact qi x (.inr hx) h
        · exact qi x (hd.inside x hx) h
      cases nt
      · obtain ⟨x, x1, x2⟩ := touch
        replace x1 := x1.resolve_left fun ⟨c, h, _⟩ => by simp at h
        simp only [Bool.false_eq_true, if_false, Set.empty_union]
        exact ⟨⟨x, x1, .inl x2⟩, fun y ⟨y1, y2⟩ => ⟨(qi' y y2 y1).2, .inl (qi' y y2 y1).1⟩⟩
      · simp only [if_true, Set.empty_union]
        refine Set.eq_empty_iff_forall_notMem.mpr fun y ⟨y1, y2⟩ => ?_
        have := qi' y y2 y1
        exact touch y (.inr this.2) this.1
    · obtain ⟨r, hr, h⟩ := C38_multiregion_in_multiregion hc hS hg.holes hSe hne
      have hr : multiregion.relateMultiregion g.holes S context = .ok r := hr
      have key := multiregion_table hd hS.split hQ.split qi (fun x ⟨c, hcm, hx⟩ =>
          (RegionRel.enclosed_or (hs.inner c hcm)).1 hx) (fun x ⟨c, hcm, hx⟩ =>
          (RegionRel.enclosed_or (hs.inner c hcm)).2 hx) touch h (multiregion_nonempty hS hSe) nh
        (all := decide (S.length = m.length)) ?_ ?_ ?_ ?_
      · refine ⟨_, ?_, key⟩
        rw [if_pos hSe, hr]
        cases r <;> rfl
      · intro e
        have : Q = [] := by
          have := hs.length
          rw [decide_eq_true_eq] at e
          exact List.eq_nil_of_length_eq_zero (by omega)
        subst this
        exact ⟨fun x ⟨c, h, _⟩ => by simp at h, fun x ⟨c, h, _⟩ => by simp at h⟩
      · intro e
        have : Q ≠ [] := by
          rintro rfl
          have := hs.length
          rw [decide_eq_false_iff_not] at e
          simp at this; omega
        exact (multiregion_nonempty hQ this).1
      · intro z z1 z2
        obtain ⟨y, y1, y2⟩ := ((hg.near hS.areal (.inr z1)).1 z2).1
        exact ⟨y, y1, y2⟩
      · rintro y y1 y2 ⟨c, hcm, y3⟩
        have hcm' := hs.inside.subset hcm
        have hcs := hm.simple c hcm'
        obtain ⟨v, v1, v2⟩ : (g.border.pts ∩ Contour.exterior c).Nonempty := by
          rcases hs.inner c hcm with h | h
          · exact hcs.border_outside hg.border (.inl rfl) h
          · exact hcs.border_outside hg.border (.inr rfl) h
        obtain ⟨⟨z, z1, z2⟩, v, v1, v2⟩ := through c hcm' ⟨y, ⟨y1, y2⟩, y3⟩ ((hg.near hcs.areal (.inl v1)).2 v2)
        rw [e3] at v1
        exact ⟨⟨z, ⟨c, hcm, z1⟩, z2⟩, v, v1, v2⟩

/-- C26: the answer of `multiregion_in_polygon` is determined by the relation of the interiors and the
boundaries. -/
theorem C26_multiregion_in_polygon_iff {context : Context K} (hc : context.Exact) {m : Multiregion K}
    {g : Polygon K} (hm : Multiregion.Valid m) (hne : m ≠ []) (hg : g.Valid)
    (hcn : g.holes = [] ∨ g.Connected) (r : Relation) :
    planar.multiregionInPolygon m g context = .ok r ↔
      CompoundRel (Multiregion.interior m) (Multiregion.pts m) (Multiregion.exterior m)
        g.interior g.pts g.exterior r := by
  obtain ⟨r', hr, h⟩ := C26_multiregion_in_polygon hc hm hg hcn
  obtain ⟨a1, a2, a3⟩ := multiregion_apart hm
  obtain ⟨b1, b2, b3⟩ := polygon_apart hg
  obtain ⟨j1, j2⟩ := multiregion_nonempty hm hne
  obtain ⟨k1, k2⟩ := polygon_nonempty hg
  rw [hr]
  constructor
  · intro e; cases e; exact h
  · intro h'
    rw [CompoundRel.unique j1 j2 k1 k2 a1 a2 b1 b2 h h']

end Orient.Props
