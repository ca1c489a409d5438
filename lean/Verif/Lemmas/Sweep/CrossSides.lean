import Verif.Lemmas.Sweep.Locate

/-! A crossing of an edge of an area goes from the interior to the exterior. -/

set_option linter.unusedSectionVars false

namespace Orient

variable {K : Type} [Field K] [LinearOrder K] [IsStrictOrderedRing K]

open Segment State eventsQueue

variable {ε : K} {P : Finset (Point K)} {s : State K} {b : Bool} {I E : Set (Point K)}

theorem Segment.keep_order' {u v : Segment K} {a t : K}
    (h : ∀ x, min a t ≤ x → x ≤ max a t → u.height ε x ≠ v.height ε x) :
    u.height ε a < v.height ε a ↔ u.height ε t < v.height ε t := by
  rcases le_total a t with hle | hle
  · rw [min_eq_left hle, max_eq_right hle] at h
    exact keep_order hle h
  · rw [min_eq_right hle, max_eq_left hle] at h
    exact (keep_order hle h).symm

/-- No other segment of the operand goes through inner points of a segment. -/
def Proper (s : State K) (b : Bool) : Prop :=
  ∀ i < s.nextLeft, ∀ j < s.nextLeft, (s.lefts i).fromTest = b → (s.lefts j).fromTest = b → i ≠ j →
    ∀ p, (s.seg i).Inner p → p ∉ (s.seg j).pts

theorem crossing_sides (c : Clock ε P s) (hcl : ¬ Clash s) (A : Area ε P (s.marks b) I E)
    (hp : Proper s b) {u v : Nat} (hu : u < s.nextLeft) (hv : v < s.nextLeft)
    (bu : (s.lefts u).fromTest = !b) (bv : (s.lefts v).fromTest = b)
    (hn : ¬ Same ε (s.seg u) (s.seg v)) {p : Point K} (pu : (s.seg u).Inner p)
    (pv : (s.seg v).Inner p) :
    (s.operand (!b) ∩ I).Nonempty ∧ (s.operand (!b) ∩ E).Nonempty := by
  have hP : p ∈ P := c.mem hu hv hn pu.1 pv.1
  obtain ⟨t₁, t₂, ht₁, ht₂, hw⟩ := exists_window ε (p.time ε) P.toList
  replace hw : ∀ w ∈ P, t₁ ≤ w.time ε → w.time ε ≤ t₂ → w.time ε = p.time ε :=
    fun w hw' => hw w (Finset.mem_toList.mpr hw')
  -- what is alive at the ends of the window
  have alive : ∀ w < s.nextLeft, (s.seg w).Inner p →
      (s.lefts w).start.time ε < t₁ ∧ t₂ < (s.leftEnd w).time ε := by
    intro w hw' hin
    obtain ⟨h1, h2, -⟩ := (mem_pts_iff_height (c.times hw') p).mp hin.1
    have h3 : (s.lefts w).start.time ε ≠ p.time ε := fun e =>
      hin.2 (.inl ((c.eq_iff (c.points.start w hw') hP).mp e).symm)
    have h4 : (s.leftEnd w).time ε ≠ p.time ε := fun e =>
      hin.2 (.inr ((c.eq_iff (c.points.finish w hw') hP).mp e).symm)
    have h1 : (s.lefts w).start.time ε < p.time ε := lt_of_le_of_ne h1 h3
    have h2 : p.time ε < (s.leftEnd w).time ε := lt_of_le_of_ne h2 h4.symm
    constructor
    · by_contra hn
      exact h3 (hw _ (c.points.start w hw') (not_lt.mp hn) (h1.trans ht₂).le)
    · by_contra hn
      exact h4 (hw _ (c.points.finish w hw') (ht₁.trans h2).le (not_lt.mp hn))
  have au := alive u hu pu
  have av := alive v hv pv
  -- a time in the window
  have key : ∀ t, t₁ ≤ t → t ≤ t₂ → t ≠ p.time ε → Generic ε P t ∧
      (s.seg u).height ε t ≠ (s.seg v).height ε t ∧
      ∀ j < s.nextLeft, j ≠ v → ActiveAt ε s b t j →
        (s.seg u).height ε t ≠ (s.seg j).height ε t ∧
        ((s.seg j).height ε t < (s.seg u).height ε t ↔ (s.seg j).height ε t < (s.seg v).height ε t) := by
    intro t k1 k2 kne
    have hg : Generic ε P t := by
      intro q hq e
      exact kne (e.symm.trans (hw q hq (k1.trans_eq e.symm) (e.trans_le k2)))
    refine ⟨hg, fun e => ?_, fun j hj hjv aj => ?_⟩
    · refine hn (same_of_two kne e ?_)
      rw [← c.height hu pu.1, ← c.height hv pv.1]
    · have hpj : p ∉ (s.seg j).pts := hp v hv j hj bv aj.1 hjv.symm p pv
      -- the segment is alive all the time
      have hs : (s.lefts j).start.time ε ≤ min (p.time ε) t := by
        refine le_min ?_ aj.2.1.le
        by_contra hlt
        have hlt := not_le.mp hlt
        exact hlt.ne (hw _ (c.points.start j hj) (ht₁.trans hlt).le (aj.2.1.le.trans k2)).symm
      have hf : max (p.time ε) t ≤ (s.leftEnd j).time ε := by
        refine max_le ?_ aj.2.2.le
        by_contra hlt
        have hlt := not_le.mp hlt
        exact hlt.ne (hw _ (c.points.finish j hj) (k1.trans aj.2.2.le) (hlt.trans ht₂).le)
      have hmin : t₁ ≤ min (p.time ε) t := le_min ht₁.le k1
      have hmax : max (p.time ε) t ≤ t₂ := max_le ht₂.le k2
      have hpy : p.y ≠ (s.seg j).height ε (p.time ε) := fun e =>
        hpj ((mem_pts_iff_height (c.times hj) p).mpr ⟨hs.trans (min_le_left _ _),
          (le_max_left _ _).trans hf, e⟩)
      have differ : ∀ w < s.nextLeft, (s.seg w).Inner p → ∀ x, min (p.time ε) t ≤ x →
          x ≤ max (p.time ε) t → (s.seg j).height ε x ≠ (s.seg w).height ε x := by
        intro w hw' hin x x1 x2 e
        obtain ⟨a1, a2⟩ := alive w hw' hin
        by_cases hs' : Same ε (s.seg j) (s.seg w)
        · refine hpy ?_
          rw [hs'.at]; exact c.height hw' hin.1
        · obtain ⟨y, hy, ey, y1, y2⟩ := c.common hj hw' hs' (hs.trans x1) (x2.trans hf)
            (a1.le.trans (hmin.trans x1)) ((x2.trans hmax).trans a2.le) e
          have := hw y hy (by rw [ey]; exact hmin.trans x1) (by rw [ey]; exact x2.trans hmax)
          refine hpy ?_
          rw [← this, ey, e, ← ey, this]
          exact c.height hw' hin.1
      have e1 := keep_order' (differ u hu pu)
      have e2 := keep_order' (differ v hv pv)
      refine ⟨fun e => differ u hu pu t (min_le_right _ _) (le_max_right _ _) e.symm, ?_⟩
      rw [← e1, ← e2, ← c.height hu pu.1, ← c.height hv pv.1]
  -- the place of the crossing segment
  have place : ∀ t, t₁ ≤ t → t ≤ t₂ → t ≠ p.time ε → (s.seg u).pointAt ε t ∈ s.operand (!b) ∧
      ((s.seg u).pointAt ε t ∈ I ↔ ((s.seg v).height ε t < (s.seg u).height ε t ↔
        (s.lefts v).interiorToLeft = true)) ∧
      ((s.seg u).pointAt ε t ∈ E ↔ ¬ ((s.seg v).height ε t < (s.seg u).height ε t ↔
        (s.lefts v).interiorToLeft = true)) := by
    intro t k1 k2 kne
    obtain ⟨hg, hne, hoth⟩ := key t k1 k2 kne
    have act : ActiveAt ε s b t v := ⟨bv, av.1.trans_le k1, k2.trans_lt av.2⟩
    have hnop : col ε t ((s.seg u).height ε t) ∉ s.operand b := by
      intro hm
      obtain ⟨j, hj, aj, e⟩ := (col_mem_operand c hg).mp hm
      by_cases hjv : j = v
      · subst hjv; exact hne e.symm
      · exact (hoth j hj hjv aj).1 e.symm
    have hat := A.at_col hg hnop
    have hside := A.bounds.sides v hv t act hg
    have hvn : v ∉ below ε s b t ((s.seg v).height ε t) := fun h => lt_irrefl _ (mem_below.mp h).2.2
    have hcard : Odd (below ε s b t ((s.seg u).height ε t)).card ↔
        ((s.seg v).height ε t < (s.seg u).height ε t ↔ (s.lefts v).interiorToLeft = true) := by
      by_cases hlt : (s.seg v).height ε t < (s.seg u).height ε t
      · have : below ε s b t ((s.seg u).height ε t)
            = insert v (below ε s b t ((s.seg v).height ε t)) := by
          ext j
          rw [Finset.mem_insert, mem_below, mem_below]
          by_cases hjv : j = v
          · subst hjv; simp [hv, act, hlt]
          · simp only [hjv, false_or]
            refine and_congr_right fun hj => and_congr_right fun aj => (hoth j hj hjv aj).2
        rw [this, Finset.card_insert_of_notMem hvn, Nat.odd_add_one, Nat.not_odd_iff_even, ← hside]
        simp [hlt]
      · have : below ε s b t ((s.seg u).height ε t) = below ε s b t ((s.seg v).height ε t) := by
          ext j
          rw [mem_below, mem_below]
          by_cases hjv : j = v
          · subst hjv; simp [hlt]
          · refine and_congr_right fun hj => and_congr_right fun aj => (hoth j hj hjv aj).2
        rw [this, ← Nat.not_even_iff_odd, ← hside]
        simp [hlt]
    refine ⟨⟨u, hu, bu, pointAt_mem (c.times hu) (au.1.trans_le k1).le (k2.trans_lt au.2).le⟩, ?_, ?_⟩
    · exact hat.1.trans hcard
    · rw [← hcard, Nat.not_odd_iff_even]; exact hat.2
  -- the order changes
  have change : (s.seg v).height ε t₁ < (s.seg u).height ε t₁ ↔
      ¬ (s.seg v).height ε t₂ < (s.seg u).height ε t₂ := by
    have n1 := (key t₁ le_rfl (ht₁.trans ht₂).le ht₁.ne).2.1
    have n2 := (key t₂ (ht₁.trans ht₂).le le_rfl ht₂.ne').2.1
    have e0 : (s.seg u).height ε (p.time ε) = (s.seg v).height ε (p.time ε) := by
      rw [← c.height hu pu.1, ← c.height hv pv.1]
    have u1 := height_eq (ε := ε) (s.seg u) t₁ (p.time ε)
    have u2 := height_eq (ε := ε) (s.seg u) t₂ (p.time ε)
    have v1 := height_eq (ε := ε) (s.seg v) t₁ (p.time ε)
    have v2 := height_eq (ε := ε) (s.seg v) t₂ (p.time ε)
    constructor
    · intro h1 h2
      nlinarith
    · intro h2
      have h2 := lt_of_le_of_ne (not_lt.mp h2) n2
      by_contra h1
      have h1 := lt_of_le_of_ne (not_lt.mp h1) n1
      nlinarith
  obtain ⟨m1, i1, e1⟩ := place t₁ le_rfl (ht₁.trans ht₂).le ht₁.ne
  obtain ⟨m2, i2, e2⟩ := place t₂ (ht₁.trans ht₂).le le_rfl ht₂.ne'
  by_cases hI : (s.seg u).pointAt ε t₁ ∈ I
  · refine ⟨⟨_, m1, hI⟩, ⟨_, m2, e2.mpr fun h => ?_⟩⟩
    have := i1.mp hI
    rw [change, ← h] at this
    exact iff_not_self this.symm
  · refine ⟨⟨_, m2, i2.mpr ?_⟩, ⟨_, m1, e1.mpr fun h => hI (i1.mpr h)⟩⟩
    rw [i1, change] at hI
    by_contra h
    refine hI ⟨fun h1 => ?_, fun h1 h2 => h ⟨fun _ => h1, fun _ => h2⟩⟩
    by_contra h2
    exact h ⟨fun h3 => absurd h3 h1, fun h3 => absurd h3 h2⟩

end Orient
