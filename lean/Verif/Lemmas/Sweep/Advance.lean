import Verif.Lemmas.Sweep.Settled

/-! The order of the pieces on the sweep line is kept from one event point to the next one. -/

set_option linter.unusedSectionVars false

namespace Orient.eventsQueue

variable {K : Type} [Field K] [LinearOrder K] [IsStrictOrderedRing K]

open Segment State

/-! ### right events are handled before left ones -/

/-- The first event starts earlier, or they start together and it is not a left one unless the second
one is. -/
def Prec (s : State K) (e e' : Ev) : Prop :=
  s.evStart e ≤ s.evStart e' ∧ (s.evStart e = s.evStart e' → e.isLeft = true → e'.isLeft = true)

theorem Prec.refl (s : State K) (e : Ev) : Prec s e e := ⟨le_rfl, fun _ h => h⟩

theorem Prec.trans {s : State K} {a b c : Ev} (h : Prec s a b) (h' : Prec s b c) : Prec s a c := by
  refine ⟨h.1.trans h'.1, fun e hl => ?_⟩
  have e1 : s.evStart a = s.evStart b := le_antisymm h.1 (e ▸ h'.1)
  exact h'.2 (e1 ▸ e) (h.2 e1 hl)

theorem keyLt_of_kinds (context : Context K) (s : State K) {e e' : Ev}
    (h : s.evStart e = s.evStart e') (hk : e.isLeft ≠ e'.isLeft) :
    keyLt context s e e' = e'.isLeft := by
  simp [keyLt, h, hk]

theorem keyLt_prec {context : Context K} {s : State K} {e e' : Ev} (h : keyLt context s e e' = true) :
    Prec s e e' := by
  refine ⟨keyLt_start context s h, fun he hl => ?_⟩
  by_cases hk : e.isLeft = e'.isLeft
  · rw [← hk]; exact hl
  · rw [keyLt_of_kinds context s he hk] at h; exact h

theorem not_keyLt_prec {context : Context K} {s : State K} {e e' : Ev}
    (h : ¬ keyLt context s e e' = true) : Prec s e' e := by
  refine ⟨not_lt.mp fun hlt => h (keyLt_of_lt context s hlt), fun he hl => ?_⟩
  by_cases hk : e.isLeft = e'.isLeft
  · rw [hk]; exact hl
  · rw [keyLt_of_kinds context s he.symm hk] at h; exact absurd hl h

theorem least_prec (context : Context K) (s : State K) (best : Ev) (l : List Ev) :
    ∀ e ∈ best :: l, Prec s (least context s best l) e := by
  induction l generalizing best with
  | nil => simpa [least] using Prec.refl s best
  | cons e l ih =>
    intro x hx
    rw [least]
    have ih := ih (if keyLt context s e best then e else best)
    have h0 := ih _ (List.mem_cons_self ..)
    rcases List.mem_cons.mp hx with rfl | hx
    · refine h0.trans ?_
      split
      · next hk => exact keyLt_prec hk
      · exact .refl _ _
    · rcases List.mem_cons.mp hx with rfl | hx
      · refine h0.trans ?_
        split
        · exact .refl _ _
        · next hk => exact not_keyLt_prec hk
      · exact ih x (List.mem_cons_of_mem _ hx)

theorem peek?_prec {context : Context K} {s : State K} {e : Ev} (h : peek? context s = some e) :
    ∀ e' ∈ s.queue, Prec s e e' := by
  unfold peek? at h
  split at h
  · cases h
  · next hq =>
    simp only [Option.some.injEq] at h
    rw [hq, ← h]; exact least_prec context s _ _

/-! ### neighbours -/

theorem pairwise_all {R : Nat → Nat → Prop} (hs : ∀ i j, R i j → R j i) (hr : ∀ i, R i i) {l : List Nat}
    (h : l.Pairwise R) {i j : Nat} (hi : i ∈ l) (hj : j ∈ l) : R i j := by
  have : Std.Symm R := ⟨hs⟩
  exact List.Pairwise.forall_of_forall (fun i _ => hr i) h hi hj

/-- A property which neighbours of one height share is shared by all the pieces of one height. -/
theorem chain_color {h : Nat → K} {c : Nat → Prop} {l : List Nat}
    (hc : l.IsChain fun i j => h i < h j ∨ (h i = h j ∧ (c i ↔ c j))) {i j : Nat} (hi : i ∈ l)
    (hj : j ∈ l) (e : h i = h j) : c i ↔ c j := by
  have : Trans (fun i j => h i < h j ∨ (h i = h j ∧ (c i ↔ c j)))
      (fun i j => h i < h j ∨ (h i = h j ∧ (c i ↔ c j)))
      (fun i j => h i < h j ∨ (h i = h j ∧ (c i ↔ c j))) := by
    refine ⟨fun {a b d} h1 h2 => ?_⟩
    rcases h1 with h1 | ⟨h1, k1⟩ <;> rcases h2 with h2 | ⟨h2, k2⟩
    · exact .inl (h1.trans h2)
    · exact .inl (h2 ▸ h1)
    · exact .inl (h1 ▸ h2)
    · exact .inr ⟨h1.trans h2, k1.trans k2⟩
  have hp := List.isChain_iff_pairwise.mp hc
  have hp' : l.Pairwise fun i j => h i = h j → (c i ↔ c j) := by
    refine hp.imp fun {i j} h' e => ?_
    rcases h' with h' | h'
    · exact absurd e h'.ne
    · exact h'.2
  exact pairwise_all (R := fun i j => h i = h j → (c i ↔ c j)) (fun i j h' e => (h' e.symm).symm)
    (fun _ _ => Iff.rfl) hp' hi hj e

theorem pairwise_of_chain {R : Nat → Nat → Prop} (hR : ∀ i j k, R i j → R j k → R i k) {l : List Nat}
    (h : l.IsChain R) : l.Pairwise R := by
  have : Trans R R R := ⟨fun {a b c} h1 h2 => hR a b c h1 h2⟩
  exact List.isChain_iff_pairwise.mp h

theorem isChain_and {R S : Nat → Nat → Prop} {l : List Nat} (h : l.IsChain R) (h' : l.IsChain S) :
    l.IsChain fun i j => R i j ∧ S i j := by
  induction l with
  | nil => exact .nil
  | cons a l ih =>
    cases l with
    | nil => exact .singleton a
    | cons b l =>
      rw [List.isChain_cons_cons] at h h' ⊢
      exact ⟨⟨h.1, h'.1⟩, ih h.2 h'.2⟩

/-- Pieces on different lines which have the same height at the time of a known point both of them
reach contain the point. -/
theorem Clock.common_at {ε : K} {P : Finset (Point K)} {s : State K} (c : Clock ε P s) {i j : Nat}
    (hi : i < s.nextLeft) (hj : j < s.nextLeft) (hn : ¬ Same ε (s.seg i) (s.seg j)) {p : Point K}
    (hp : p ∈ P) (hi1 : (s.lefts i).start ≤ p) (hi2 : p ≤ s.leftEnd i)
    (hj1 : (s.lefts j).start ≤ p) (hj2 : p ≤ s.leftEnd j)
    (h : (s.seg i).height ε (p.time ε) = (s.seg j).height ε (p.time ε)) :
    p ∈ (s.seg i).pts ∧ p ∈ (s.seg j).pts := by
  obtain ⟨x, hx, ht, h1, h2⟩ := c.common hi hj hn
    ((c.le_iff (c.points.start i hi) hp).mpr hi1) ((c.le_iff hp (c.points.finish i hi)).mpr hi2)
    ((c.le_iff (c.points.start j hj) hp).mpr hj1) ((c.le_iff hp (c.points.finish j hj)).mpr hj2) h
  rw [(c.eq_iff hx hp).mp ht] at h1 h2
  exact ⟨h1, h2⟩

/-! ### the two phases of handling an event point -/

/-- No left event at the point has been handled yet. -/
structure Rights (ε : K) (s : State K) (line : List Nat) (p : Point K) : Prop where
  before : ∀ i ∈ line, (s.lefts i).start < p
  sorted : line.Pairwise (Bef ε s (p.time ε))
  wait : ∀ i ∈ line, p ∈ (s.seg i).pts → p < s.leftEnd i → Starts s p
  /-- the other pieces through an inner point of a piece go along it -/
  thru : ∀ i ∈ line, p ∈ (s.seg i).pts → p < s.leftEnd i → Goes ε s (s.seg i) p ∨
    ∀ e < s.nextLeft, (s.lefts e).start < p → p ∈ (s.seg e).pts →
      Same ε (s.seg i) (s.seg e) ∧ p < s.leftEnd e

/-- A left event at the point has been handled. -/
structure Lefts (ε : K) (s : State K) (line : List Nat) (p : Point K) : Prop where
  sorted : line.Pairwise (Aft ε s (p.time ε))
  some : ∃ k ∈ line, (s.lefts k).start = p
  old : ∀ o ∈ line, (s.lefts o).start < p → p ∈ (s.seg o).pts → ∀ k ∈ line, ∀ k' ∈ line,
    (s.lefts k).start = p → (s.lefts k').start = p → k = k'

/-- What holds before and after an event at the point is handled. -/
structure Moving (ε : K) (P : Finset (Point K)) (s : State K) (line : List Nat) (p : Point K) :
    Prop where
  base : Base ε P s line p
  chain : line.IsChain (Settled ε s p)
  phase : Rights ε s line p ∨ Lefts ε s line p

section

variable {ε : K} {P : Finset (Point K)} {s : State K} {line : List Nat} {p : Point K}

theorem Rights.aft (hr : Rights ε s line p) (hb : Base ε P s line p)
    (hch : line.IsChain (Settled ε s p)) (he : ∀ i ∈ line, p < s.leftEnd i) :
    line.Pairwise (Aft ε s (p.time ε)) := by
  have hc : line.IsChain fun i j => (s.seg i).height ε (p.time ε) < (s.seg j).height ε (p.time ε) ∨
      Same ε (s.seg i) (s.seg j) := by
    refine List.IsChain.imp_of_mem_imp ?_ (isChain_and hch hr.sorted.isChain)
    rintro i j hi hj ⟨h1, h2⟩
    by_cases hs : Same ε (s.seg i) (s.seg j)
    · exact .inr hs
    · refine .inl (lt_of_le_of_ne h2.height_le fun e => ?_)
      obtain ⟨k1, k2⟩ := Clock.common_at hb.clock (hb.lt hi) (hb.lt hj) hs hb.mem (hb.start_le hi)
        (hb.le_end hi) (hb.start_le hj) (hb.le_end hj) e
      rcases (h1.cross hs p k1 k2).1 with e | e
      · exact (hr.before i hi).ne e.symm
      · exact (he i hi).ne e
  have hp := pairwise_of_chain (fun i j k h1 h2 => ?_) hc
  · refine (hp.and hr.sorted).imp ?_
    rintro i j ⟨h1, h2⟩
    rcases h1 with h1 | h1
    · exact .inr (.inl h1)
    · exact .inl (h2.resolve_right fun h => h.not_same h1)
  · rcases h1 with h1 | h1 <;> rcases h2 with h2 | h2
    · exact .inl (h1.trans h2)
    · exact .inl (h2.at _ ▸ h1)
    · exact .inl (h1.at _ ▸ h2)
    · exact .inr (h1.trans h2)

theorem Lefts.apart (hl : Lefts ε s line p) (hb : Base ε P s line p)
    (hch : line.IsChain (Settled ε s p)) (he : ∀ i ∈ line, p < s.leftEnd i) :
    ∀ o ∈ line, (s.lefts o).start < p → p ∉ (s.seg o).pts := by
  intro o ho hlt hm
  obtain ⟨k, hk, hk'⟩ := hl.some
  have hc : line.IsChain fun i j => (s.seg i).height ε (p.time ε) < (s.seg j).height ε (p.time ε) ∨
      ((s.seg i).height ε (p.time ε) = (s.seg j).height ε (p.time ε) ∧
        ((s.lefts i).start = p ↔ (s.lefts j).start = p)) := by
    refine List.IsChain.imp_of_mem_imp ?_ (isChain_and hch hl.sorted.isChain)
    rintro i j hi hj ⟨h1, h2⟩
    rcases h2.height_le.lt_or_eq with h3 | h3
    · exact .inl h3
    · refine .inr ⟨h3, ?_⟩
      by_cases hs : Same ε (s.seg i) (s.seg j)
      · rcases h1.same hs with h | h | h
        · rw [h.1]
        · exact absurd (hb.start_le hj) (not_le.mpr (h ▸ he i hi))
        · exact absurd (hb.start_le hi) (not_le.mpr (h ▸ he j hj))
      · obtain ⟨k1, k2⟩ := Clock.common_at hb.clock (hb.lt hi) (hb.lt hj) hs hb.mem (hb.start_le hi)
          (hb.le_end hi) (hb.start_le hj) (hb.le_end hj) h3
        obtain ⟨e1, e2⟩ := h1.cross hs p k1 k2
        have e1 := e1.resolve_right fun e => (he i hi).ne e
        have e2 := e2.resolve_right fun e => (he j hj).ne e
        exact ⟨fun _ => e2.symm, fun _ => e1.symm⟩
  have e : (s.seg o).height ε (p.time ε) = (s.seg k).height ε (p.time ε) := by
    rw [← hb.clock.height (hb.lt ho) hm, ← hb.clock.height (hb.lt hk)]
    rw [← hk']; exact start_mem _
  exact hlt.ne ((chain_color hc ho hk e).mpr hk')

theorem Moving.sorted (hm : Moving ε P s line p) (he : ∀ i ∈ line, p < s.leftEnd i) :
    line.Pairwise (Aft ε s (p.time ε)) := by
  rcases hm.phase with h | h
  · exact h.aft hm.base hm.chain he
  · exact h.sorted

theorem Settled.le {p' : Point K} (hp : p ≤ p') {a b : Nat} (h : Settled ε s p a b) :
    Settled ε s p' a b :=
  ⟨h.cross, fun hs => (h.same hs).imp (fun h => ⟨h.1, h.2.imp id fun h => ⟨h.1.trans_le hp, h.2⟩⟩) id⟩

/-- When all the events at the point have been handled the sweep line moves to the next one. -/
theorem Moving.advance (hm : Moving ε P s line p) {p' : Point K} (hp : p < p')
    (hq : ∀ e ∈ s.queue, p' ≤ s.evStart e) (hex : ∃ e ∈ s.queue, s.evStart e = p') :
    Moving ε P s line p' ∧ Rights ε s line p' := by
  have hb := hm.base
  have c := hb.clock
  have hw := c.wf
  have hP' : p' ∈ P := by
    obtain ⟨e, he, rfl⟩ := hex
    have hv := hw.valid_of_mem he
    cases e with
    | left i => exact c.points.start i hv
    | right r =>
      have := c.points.finish _ (hw.rightLeft r hv).1
      rwa [hw.leftEnd_left hv] at this
  have hT : p.time ε < p'.time ε := (c.lt_iff hb.mem hP').mpr hp
  have ends : ∀ i ∈ line, p' ≤ s.leftEnd i := fun i hi => hq _ ((hb.active i).mp hi).2.2
  have he : ∀ i ∈ line, p < s.leftEnd i := fun i hi => hp.trans_le (ends i hi)
  have hsort := hm.sorted he
  have through : ∀ i ∈ line, (s.lefts i).start < p → p ∉ (s.seg i).pts := by
    rcases hm.phase with h | h
    · intro i hi _ hmem
      obtain ⟨k, hk, e⟩ := h.wait i hi hmem (he i hi)
      have := hq _ hk
      change p' ≤ (s.lefts k).start at this
      rw [e] at this
      exact absurd hp (not_lt.mpr this)
    · exact h.apart hb hm.chain he
  -- every piece which has started and not ended is on the sweep line
  have online : ∀ i < s.nextLeft, (s.lefts i).start < p' → p < s.leftEnd i → i ∈ line := by
    intro i hi h1 h2
    exact hb.mem_line hi (fun hm => absurd (hq _ hm) (not_le.mpr h1)) h2
  have started : ∀ i < s.nextLeft, (s.lefts i).start < p' → (s.lefts i).start ≤ p := by
    intro i hi h1
    exact hb.popped (.left i) hi fun hm => absurd (hq _ hm) (not_le.mpr h1)
  have ended : ∀ i < s.nextLeft, s.leftEnd i < p' → s.leftEnd i ≤ p := by
    intro i hi h1
    exact hb.popped (.right (s.lefts i).right) (hw.leftRight i hi).1
      fun hm => absurd (hq _ hm) (not_le.mpr h1)
  have tstart : ∀ i ∈ line, (s.lefts i).start.time ε ≤ p.time ε := fun i hi =>
    (c.le_iff (c.points.start i (hb.lt hi)) hb.mem).mpr (hb.start_le hi)
  have tend : ∀ i ∈ line, p'.time ε ≤ (s.leftEnd i).time ε := fun i hi =>
    (c.le_iff hP' (c.points.finish i (hb.lt hi))).mpr (ends i hi)
  have bef : line.Pairwise (Bef ε s (p'.time ε)) := by
    refine pairwise_of_chain (fun i j k h1 h2 => h1.trans h2) ?_
    refine List.IsChain.imp_of_mem_imp ?_ (isChain_and hm.chain hsort.isChain)
    rintro i j hi hj ⟨h1, h2⟩
    rcases h2 with h2 | h2
    · exact .inl h2
    · refine .inr ?_
      have hs := h2.not_same
      have ei := height_eq (ε := ε) (s.seg i) (p'.time ε) (p.time ε)
      have ej := height_eq (ε := ε) (s.seg j) (p'.time ε) (p.time ε)
      have hd : 0 < p'.time ε - p.time ε := sub_pos.mpr hT
      rcases lt_trichotomy ((s.seg i).height ε (p'.time ε)) ((s.seg j).height ε (p'.time ε))
        with h3 | h3 | h3
      · exact .inl h3
      · refine .inr ⟨h3, ?_⟩
        by_contra hle
        have hle := not_lt.mp hle
        rcases hle.lt_or_eq with hlt | heq
        · rcases h2 with h2 | ⟨h2, -⟩
          · nlinarith
          · nlinarith
        · exact hs (same_of_at h3 heq)
      · exfalso
        rcases h2 with h2 | ⟨h2, h2'⟩
        · -- the difference of heights vanishes in between
          set α := (s.seg j).height ε (p.time ε) - (s.seg i).height ε (p.time ε) with hα
          set β := (s.seg i).slope ε - (s.seg j).slope ε with hβ
          have hα0 : 0 < α := sub_pos.mpr h2
          have hαβ : α < β * (p'.time ε - p.time ε) := by rw [hα, hβ]; linarith
          have hβ0 : 0 < β := by
            by_contra hn
            have := mul_nonpos_of_nonpos_of_nonneg (not_lt.mp hn) hd.le
            linarith
          set t := p.time ε + α / β with ht
          have ht0 : p.time ε < t := by rw [ht]; linarith [div_pos hα0 hβ0]
          have ht1 : t < p'.time ε := by
            have : α / β < p'.time ε - p.time ε := by rw [div_lt_iff₀ hβ0]; linarith
            rw [ht]; linarith
          have heq : (s.seg i).height ε t = (s.seg j).height ε t := by
            rw [height_eq _ t (p.time ε), height_eq (s.seg j) t (p.time ε)]
            have : t - p.time ε = α / β := by rw [ht]; ring
            rw [this]
            have h4 : β * (α / β) = α := by field_simp
            have h5 : (s.seg i).slope ε * (α / β) - (s.seg j).slope ε * (α / β) = α := by
              rw [← sub_mul, ← hβ, h4]
            linarith
          obtain ⟨x, hx, hxt, m1, m2⟩ := c.common (hb.lt hi) (hb.lt hj) hs
            ((tstart i hi).trans ht0.le) (ht1.le.trans (tend i hi))
            ((tstart j hj).trans ht0.le) (ht1.le.trans (tend j hj)) heq
          rw [← hxt] at ht0 ht1
          have x0 := (c.lt_iff hb.mem hx).mp ht0
          have x1 := (c.lt_iff hx hP').mp ht1
          rcases (h1.cross hs x m1 m2).1 with e | e
          · have e : x = (s.lefts i).start := e
            exact absurd (hb.start_le hi) (not_le.mpr (e ▸ x0))
          · have e : x = s.leftEnd i := e
            exact absurd (ends i hi) (not_le.mpr (e ▸ x1))
        · nlinarith
  have hbase : Base ε P s line p' := by
    refine ⟨c, hP', hb.nodup, hb.active, hq, fun e h1 h2 => (hb.popped e h1 h2).trans hp.le, hb.key,
      ?_, ?_, ?_, hb.clash⟩
    · intro i hi j hj hs x hx hx' hlt
      rcases lt_trichotomy x p with h | h | h
      · exact hb.past i hi j hj hs x hx hx' h
      · have key : ∀ i < s.nextLeft, x ∈ (s.seg i).pts → (s.seg i).IsEndpoint x := by
          intro i hi hx
          have h1 := c.start_le hi hx
          rcases (c.le_end hi hx).eq_or_lt with h2 | h2
          · exact .inr h2
          · have hl := online i hi (h1.trans_lt hlt) (h ▸ h2)
            rcases h1.eq_or_lt with h3 | h3
            · exact .inl h3.symm
            · exact absurd (h ▸ hx) (through i hl (h ▸ h3))
        exact ⟨key i hi hx, key j hj hx'⟩
      · exfalso
        have hxP := c.mem hi hj hs hx hx'
        have li := online i hi ((c.start_le hi hx).trans_lt hlt) (h.trans_le (c.le_end hi hx))
        have lj := online j hj ((c.start_le hj hx').trans_lt hlt) (h.trans_le (c.le_end hj hx'))
        have t0 := (c.lt_iff hb.mem hxP).mpr h
        have t1 := (c.lt_iff hxP hP').mpr hlt
        have ex : (s.seg i).height ε (x.time ε) = (s.seg j).height ε (x.time ε) := by
          rw [← c.height hi hx, ← c.height hj hx']
        have core : ∀ i j, (s.seg i).height ε (x.time ε) = (s.seg j).height ε (x.time ε) →
            Aft ε s (p.time ε) i j → Bef ε s (p'.time ε) i j → Same ε (s.seg i) (s.seg j) := by
          intro i j ex h1 h2
          have a1 := h1.height_le
          have a2 := h2.height_le
          have i1 := height_eq (ε := ε) (s.seg i) (p.time ε) (x.time ε)
          have i2 := height_eq (ε := ε) (s.seg i) (p'.time ε) (x.time ε)
          have j1 := height_eq (ε := ε) (s.seg j) (p.time ε) (x.time ε)
          have j2 := height_eq (ε := ε) (s.seg j) (p'.time ε) (x.time ε)
          refine same_of_at ex (le_antisymm ?_ ?_)
          · by_contra hn
            have hn := not_le.mp hn
            nlinarith
          · by_contra hn
            have hn := not_le.mp hn
            nlinarith
        have hall : ∀ i ∈ line, ∀ j ∈ line, (s.seg i).height ε (x.time ε) =
            (s.seg j).height ε (x.time ε) → Same ε (s.seg i) (s.seg j) := by
          intro i hi j hj
          exact pairwise_all (l := line)
            (R := fun i j => (s.seg i).height ε (x.time ε) = (s.seg j).height ε (x.time ε) →
              Same ε (s.seg i) (s.seg j)) (fun i j h e => (h e.symm).symm) (fun i _ => .refl _)
            ((hsort.and bef).imp fun {i j} h e => core i j e h.1 h.2) hi hj
        exact hs (hall i li j lj ex)
    · have key : ∀ i < s.nextLeft, ∀ j < s.nextLeft, Same ε (s.seg i) (s.seg j) →
          (s.lefts i).start = p → (s.lefts j).start < p → p < s.leftEnd j → False := by
        intro i hi j hj hs h1 h2 h3
        refine through j (online j hj (h2.trans hp) h3) h2 (c.mem_pts hj hb.mem h2.le h3.le ?_)
        rw [← hs.at, ← c.height hi]
        rw [← h1]; exact start_mem _
      intro i hi j hj hs h1 h2 h3 h4
      rcases (started i hi h1).eq_or_lt with e1 | e1 <;>
        rcases (started j hj h2).eq_or_lt with e2 | e2
      · rw [e1, e2]
      · exact (key i hi j hj hs e1 e2 (e1 ▸ h3)).elim
      · exact (key j hj i hi hs.symm e2 e1 (e2 ▸ h4)).elim
      · exact hb.pastSame i hi j hj hs e1 e2 h3 h4
    · intro i hi j hj hs h1 h2
      rcases (ended i hi h2).eq_or_lt with e | e
      · have hi0 : (s.lefts i).start < p := e ▸ hw.lt i hi
        rcases lt_trichotomy (s.leftEnd j) p with h3 | h3 | h3
        · have := hb.pastEnd j hj i hi hs.symm h1.symm h3
          rw [e] at this
          exact absurd this h3.ne'
        · rw [h3, e]
        · exfalso
          rw [h1] at hi0
          refine through j (online j hj (hi0.trans hp) h3) hi0 (c.mem_pts hj hb.mem hi0.le h3.le ?_)
          rw [← hs.at, ← c.height hi]
          rw [← e]; exact finish_mem _
      · exact hb.pastEnd i hi j hj hs h1 e
  have before : ∀ i ∈ line, (s.lefts i).start < p' := fun i hi => (hb.start_le hi).trans_lt hp
  have hr : Rights ε s line p' := by
    refine ⟨before, bef, ?_, ?_⟩
    swap
    · intro o ho hmem hlt
      by_contra hn
      push Not at hn
      obtain ⟨hn, e, hel, hes, hem, hbad⟩ := hn
      have hcol : line.IsChain fun i j =>
          (s.seg i).height ε (p'.time ε) < (s.seg j).height ε (p'.time ε) ∨
          ((s.seg i).height ε (p'.time ε) = (s.seg j).height ε (p'.time ε) ∧
            ((Same ε (s.seg o) (s.seg i) ∧ p' < s.leftEnd i) ↔
              (Same ε (s.seg o) (s.seg j) ∧ p' < s.leftEnd j))) := by
        refine List.IsChain.imp_of_mem_imp ?_ (isChain_and hm.chain bef.isChain)
        rintro i j hi hj ⟨h1, h2⟩
        rcases h2.height_le.lt_or_eq with h3 | h3
        · exact .inl h3
        · refine .inr ⟨h3, ?_⟩
          by_cases hs : Same ε (s.seg i) (s.seg j)
          · rcases h1.same hs with ⟨-, h | ⟨-, h, h'⟩⟩ | h | h
            · rw [h]
              exact ⟨fun h => ⟨h.1.trans hs, h.2⟩, fun h => ⟨h.1.trans hs.symm, h.2⟩⟩
            · constructor
              · rintro ⟨e1, e2⟩
                refine ⟨e1.trans hs, lt_of_le_of_ne (ends j hj) fun e => hn ?_⟩
                exact e ▸ (h' (e ▸ e2)).line (e1.trans hs)
              · rintro ⟨e1, e2⟩
                refine ⟨e1.trans hs.symm, lt_of_le_of_ne (ends i hi) fun e => hn ?_⟩
                exact e ▸ (h (e ▸ e2)).line (e1.trans hs.symm)
            · exact absurd (hb.start_le hj) (not_le.mpr (h ▸ he i hi))
            · exact absurd (hb.start_le hi) (not_le.mpr (h ▸ he j hj))
          · obtain ⟨k1, k2⟩ := Clock.common_at c (hb.lt hi) (hb.lt hj) hs hP' (before i hi).le
              (ends i hi) (before j hj).le (ends j hj) h3
            obtain ⟨e1, e2⟩ := h1.cross hs p' k1 k2
            have e1 : p' = s.leftEnd i := e1.resolve_left fun e => (before i hi).ne e.symm
            have e2 : p' = s.leftEnd j := e2.resolve_left fun e => (before j hj).ne e.symm
            exact ⟨fun h => absurd h.2 (e1 ▸ lt_irrefl _), fun h => absurd h.2 (e2 ▸ lt_irrefl _)⟩
      have hline : e ∈ line := online e hel hes (hp.trans_le (c.le_end hel hem))
      have heq : (s.seg o).height ε (p'.time ε) = (s.seg e).height ε (p'.time ε) := by
        rw [← c.height (hb.lt ho) hmem, ← c.height hel hem]
      have := (chain_color hcol ho hline heq).mp ⟨.refl _, hlt⟩
      exact absurd this.2 (not_lt.mpr (hbad this.1))
    intro i hi hmem hlt
    by_contra hn
    obtain ⟨e, heq, hep⟩ := hex
    cases e with
    | left k => exact hn ⟨k, heq, hep⟩
    | right r =>
      have hv := hw.queueRight r heq
      have hl := (hw.rightLeft r hv).1
      have hle := hw.leftEnd_left hv
      have hle : s.leftEnd (s.rights r).left = p' := hle.trans hep
      have hline : (s.rights r).left ∈ line := by
        refine online _ hl ?_ (hle ▸ hp)
        rw [← hle]; exact hw.lt _ hl
      have hcol : line.IsChain fun i j =>
          (s.seg i).height ε (p'.time ε) < (s.seg j).height ε (p'.time ε) ∨
          ((s.seg i).height ε (p'.time ε) = (s.seg j).height ε (p'.time ε) ∧
            (s.leftEnd i = p' ↔ s.leftEnd j = p')) := by
        refine List.IsChain.imp_of_mem_imp ?_ (isChain_and hm.chain bef.isChain)
        rintro i j hi hj ⟨h1, h2⟩
        rcases h2.height_le.lt_or_eq with h3 | h3
        · exact .inl h3
        · refine .inr ⟨h3, ?_⟩
          by_cases hs : Same ε (s.seg i) (s.seg j)
          · rcases h1.same hs with ⟨-, h | ⟨-, h, h'⟩⟩ | h | h
            · rw [h]
            · constructor
              · intro e
                by_contra hne
                exact hn (e ▸ (h (lt_of_le_of_ne (e ▸ ends j hj) fun e' => hne (e'.symm.trans e))).starts)
              · intro e
                by_contra hne
                exact hn (e ▸ (h' (lt_of_le_of_ne (e ▸ ends i hi) fun e' => hne (e'.symm.trans e))).starts)
            · exact absurd (hb.start_le hj) (not_le.mpr (h ▸ he i hi))
            · exact absurd (hb.start_le hi) (not_le.mpr (h ▸ he j hj))
          · obtain ⟨k1, k2⟩ := Clock.common_at c (hb.lt hi) (hb.lt hj) hs hP' (before i hi).le
              (ends i hi) (before j hj).le (ends j hj) h3
            obtain ⟨e1, e2⟩ := h1.cross hs p' k1 k2
            have e1 : p' = s.leftEnd i := e1.resolve_left fun e => (before i hi).ne e.symm
            have e2 : p' = s.leftEnd j := e2.resolve_left fun e => (before j hj).ne e.symm
            exact ⟨fun _ => e2.symm, fun _ => e1.symm⟩
      have heq' : (s.seg (s.rights r).left).height ε (p'.time ε) = (s.seg i).height ε (p'.time ε) := by
        rw [← c.height hl, ← c.height (hb.lt hi) hmem]
        rw [← hle]; exact finish_mem _
      exact hlt.ne ((chain_color hcol hline hi heq').mp hle).symm
  exact ⟨⟨hbase, hm.chain.imp fun _ _ h => h.le hp.le, .inl hr⟩, hr⟩

end

end Orient.eventsQueue
