import Verif.Lemmas.Sweep.Handle

/-! The invariant of the sweep line is kept by every iteration. -/

set_option linter.unusedSectionVars false

namespace Orient.eventsQueue

variable {K : Type} [Field K] [LinearOrder K] [IsStrictOrderedRing K]

open Segment State

section

variable {ε : K} {P : Finset (Point K)} {s t : State K} {line : List Nat} {p : Point K}

theorem aft_irrefl {T : K} {i : Nat} : ¬ Aft ε s T i i := by
  rintro (⟨-, h, h'⟩ | h)
  · rw [h] at h'; cases h'
  · exact h.not_symm h

theorem key_of_aft (hb : Base ε P s line p) {i j : Nat} (hi : (s.lefts i).start.time ε ≤ p.time ε)
    (hj : (s.lefts j).start.time ε ≤ p.time ε) (h : (s.lefts i).start = p ∨ (s.lefts j).start = p) :
    Key ε s i j ↔ Aft ε s (p.time ε) i j := by
  unfold Key
  have : max ((s.lefts i).start.time ε) ((s.lefts j).start.time ε) = p.time ε := by
    rcases h with h | h
    · rw [h] at hi ⊢; exact max_eq_left hj
    · rw [h] at hj ⊢; exact max_eq_right hi
  rw [this]

/-- Where an inserted piece goes. -/
structure Inserted (ε : K) (P : Finset (Point K)) (context : Context K) (s t : State K)
    (line : List Nat) (p : Point K) (k : Nat) (l₁ l₂ : List Nat) : Prop where
  split : line = l₁ ++ l₂
  add : sweepLine.add context t k line = l₁ ++ k :: l₂
  above : sweepLine.above context t k (l₁ ++ k :: l₂) = l₂.head?
  below : sweepLine.below context t k (l₁ ++ k :: l₂) = l₁.getLast?
  base : Base ε P t (l₁ ++ k :: l₂) p
  start : (t.lefts k).start = p
  sorted : (l₁ ++ k :: l₂).Pairwise (Aft ε t (p.time ε))
  chain : (l₁ ++ l₂).IsChain (Settled ε t p)
  ends : ∀ i ∈ l₁ ++ l₂, p < t.leftEnd i
  only : ∀ o ∈ l₁ ++ l₂, (t.lefts o).start < p → p ∈ (t.seg o).pts →
    ∀ i ∈ l₁ ++ l₂, (t.lefts i).start < p

theorem Moving.insert {context : Context K} (hc : context.Exact) (hm : Moving ε P s line p) {k : Nat}
    (hk : Ev.left k ∈ s.queue) (hp : (s.lefts k).start = p)
    (hno : ∀ r, Ev.right r ∈ s.queue → s.evStart (.right r) ≠ p)
    (ht : SameShape (popped s (.left k)) t) :
    ∃ l₁ l₂, Inserted ε P context s t line p k l₁ l₂ := by
  have hb := hm.base
  have c := hb.clock
  have hw := c.wf
  have hkn := hw.queueLeft k hk
  have he : ∀ i ∈ line, p < s.leftEnd i := fun i hi =>
    lt_of_le_of_ne (hb.le_end hi) fun e => hno _ ((hb.active i).mp hi).2.2 e.symm
  have hsort := hm.sorted he
  have hkl : k ∉ line := fun h => ((hb.active k).mp h).2.1 hk
  have lts : ∀ i j, sweepLine.lt context t i j = sweepLine.lt context s i j := fun i j =>
    lt_shape ht context i j
  have o1 : ∀ n ∈ line, (s.lefts n).start ≤ s.leftEnd k := fun n hn =>
    (hb.start_le hn).trans (hp ▸ (hw.lt k hkn).le)
  have o2 : ∀ n ∈ line, (s.lefts k).start ≤ s.leftEnd n := fun n hn => hp ▸ hb.le_end hn
  have hf : ∀ n ∈ line, Same ε (s.seg k) (s.seg n) → (s.lefts k).fromTest ≠ (s.lefts n).fromTest :=
    fun n hn hs => hb.operands hkn (hb.lt hn) (fun e => hkl (e ▸ hn)) hs (hp ▸ he n hn)
      ((hb.start_le hn).trans_lt (hp ▸ hw.lt k hkn))
  have tk : (s.lefts k).start.time ε ≤ p.time ε := by rw [hp]
  have tn : ∀ n ∈ line, (s.lefts n).start.time ε ≤ p.time ε := fun n hn =>
    (c.le_iff (c.points.start n (hb.lt hn)) hb.mem).mpr (hb.start_le hn)
  obtain ⟨l₁, l₂, e1, e2, e3, e4⟩ := sweepLine.add_split (context := context) (s := t) (i := k)
    (line := line) fun n hn => by
      rw [lts, lts]
      exact c.lt_total hc hkn (hb.lt hn) (fun e => hkl (e ▸ hn)) (o1 n hn) (o2 n hn) (hf n hn)
  refine ⟨l₁, l₂, ?_⟩
  subst e1
  have m1 : ∀ i ∈ l₁, i ∈ l₁ ++ l₂ := fun i hi => List.mem_append_left _ hi
  have m2 : ∀ i ∈ l₂, i ∈ l₁ ++ l₂ := fun i hi => List.mem_append_right _ hi
  have a1 : ∀ n ∈ l₁, Aft ε s (p.time ε) n k := by
    intro n hn
    have hn' := m1 n hn
    have h := (e3 n hn).2
    rw [lts] at h
    exact (key_of_aft hb (tn n hn') tk (.inr hp)).mp
      (c.key_of_lt hc (hb.lt hn') hkn (fun e => hkl (e ▸ hn')) (o2 n hn') (o1 n hn')
        (fun hs => (hf n hn' hs.symm).symm) h)
  have a2 : ∀ n ∈ l₂, Aft ε s (p.time ε) k n := by
    cases l₂ with
    | nil => simp
    | cons a l₂ =>
      have ha' := m2 a (List.mem_cons_self ..)
      have h := e4 a rfl
      rw [lts] at h
      have hka : Aft ε s (p.time ε) k a := (key_of_aft hb tk (tn a ha') (.inl hp)).mp
        (c.key_of_lt hc hkn (hb.lt ha') (fun e => hkl (e ▸ ha')) (o1 a ha') (o2 a ha')
          (hf a ha') h)
      intro n hn
      rcases List.mem_cons.mp hn with rfl | hn
      · exact hka
      · have := (List.pairwise_append.mp hsort).2.1
        exact hka.trans ((List.pairwise_cons.mp this).1 n hn)
  have asm : ∀ R : Nat → Nat → Prop, (l₁ ++ l₂).Pairwise R → (∀ n ∈ l₁, R n k) → (∀ n ∈ l₂, R k n) →
      (l₁ ++ k :: l₂).Pairwise R := by
    intro R h1 h2 h3
    rw [List.pairwise_append] at h1 ⊢
    refine ⟨h1.1, List.pairwise_cons.mpr ⟨h3, h1.2.1⟩, fun a ha b hb => ?_⟩
    rcases List.mem_cons.mp hb with rfl | hb
    · exact h2 a ha
    · exact h1.2.2 a ha b hb
  have sorted := asm _ hsort a1 a2
  have keys := asm _ hb.key
    (fun n hn => (key_of_aft hb (tn n (m1 n hn)) tk (.inr hp)).mpr (a1 n hn))
    (fun n hn => (key_of_aft hb tk (tn n (m2 n hn)) (.inl hp)).mpr (a2 n hn))
  have hbt : Base ε P t (l₁ ++ k :: l₂) p := (hb.inserted hk hp keys).shape ht
  have seg : ∀ i, t.seg i = s.seg i := fun i => ht.seg i
  have start : ∀ i, (t.lefts i).start = (s.lefts i).start := fun i => ht.start i
  have finish : ∀ i, t.leftEnd i = s.leftEnd i := fun i => ht.leftEnd i
  have fromTest : ∀ i, (t.lefts i).fromTest = (s.lefts i).fromTest := fun i => ht.fromTest i
  refine ⟨rfl, e2, sweepLine.above_split e3, sweepLine.below_split e3, hbt, (start k).trans hp, ?_,
    ?_, ?_, ?_⟩
  · refine sorted.imp fun {i j} h => ?_
    unfold Aft Cls at h ⊢
    rw [seg, seg, fromTest, fromTest]; exact h
  · refine List.IsChain.imp_of_mem_imp ?_ hm.chain
    intro i j hi hj h
    refine h.congr (seg i) (seg j) (fun hs => ?_) (fun hs => ?_)
    · exact Goes.shape ht (hs.pop_left (by rw [hp]; exact (he i hi).ne))
    · exact Goes.shape ht (hs.pop_left (by rw [hp]; exact (he j hj).ne))
  · intro i hi; rw [finish]; exact he i hi
  · intro o ho hlt hmem i hi
    rw [start] at hlt ⊢
    rw [seg] at hmem
    rcases hm.phase with h | h
    · exact h.before i hi
    · exact absurd hmem (h.apart hb hm.chain he o ho hlt)

/-- A left event is handled. -/
theorem Moving.left {linear : Bool} {context : Context K} (hc : context.Exact)
    (hm : Moving ε P s line p) {k : Nat} (hk : Ev.left k ∈ s.queue) (hp : (s.lefts k).start = p)
    (hno : ∀ r, Ev.right r ∈ s.queue → s.evStart (.right r) ≠ p)
    (ht : SameShape (popped s (.left k)) t) {s' : State K} {line' : List Nat}
    (h : handle linear context t line (.left k) = .ok (s', line')) :
    Moving ε P s' line' p ∧ Cuts p (fun _ => True) t s' := by
  obtain ⟨l₁, l₂, ins⟩ := hm.insert (t := t) hc hk hp hno ht
  obtain ⟨e0, s₀, s₁, f, h1, h2⟩ := handle_left_ok h
  rw [ins.add] at e0
  rw [e0, ins.above] at h1
  rw [e0, ins.below] at h2
  subst e0
  have hb := ins.base.shape f.shape
  have hch : (l₁ ++ l₂).IsChain (Settled ε s₀ p) := ins.chain.imp fun _ _ h => h.shape f.shape
  obtain ⟨cuts, chain⟩ := Base.settle hc hb ((f.shape.start k).trans ins.start) hch
    (fun i hi => by rw [f.shape.leftEnd]; exact ins.ends i hi) h1 h2
  have cutst : Cuts p (· ∈ l₁ ++ k :: l₂) t s' := ((Cuts.refl t).flags f).trans cuts
  have hbt := ins.base
  have hw := hbt.clock.wf
  refine ⟨⟨hbt.cuts cutst, chain, .inr ⟨?_, ⟨k, by simp, ?_⟩, ?_⟩⟩, cutst.mono fun _ _ => trivial⟩
  · refine List.Pairwise.imp_of_mem (fun {i j} hi hj h => ?_) ins.sorted
    exact hbt.clock.aft cutst.elems (hbt.lt hi) (hbt.lt hj) h
  · rw [cutst.start hw (hbt.lt (by simp))]; exact ins.start
  · intro o ho hlt hmem i hi j hj hi' hj'
    rw [cutst.start hw (hbt.lt ho)] at hlt
    rw [cutst.start hw (hbt.lt hi)] at hi'
    rw [cutst.start hw (hbt.lt hj)] at hj'
    have hmem := cutst.elems.runs.seg_subset hw (hbt.lt ho) hmem
    have split : ∀ i ∈ l₁ ++ k :: l₂, i = k ∨ i ∈ l₁ ++ l₂ := by
      intro i hi
      rcases List.mem_append.mp hi with hi | hi
      · exact .inr (List.mem_append_left _ hi)
      · rcases List.mem_cons.mp hi with hi | hi
        · exact .inl hi
        · exact .inr (List.mem_append_right _ hi)
    have ho' : o ∈ l₁ ++ l₂ := (split o ho).resolve_left fun e => by
      rw [e, ins.start] at hlt; exact lt_irrefl _ hlt
    have only := ins.only o ho' hlt hmem
    have isk : ∀ i ∈ l₁ ++ k :: l₂, (t.lefts i).start = p → i = k := fun i hi e =>
      (split i hi).resolve_right fun h => (only i h).ne e
    rw [isk i hi hi', isk j hj hj']

/-- A right event is handled. -/
theorem Moving.right {linear : Bool} {context : Context K} (hc : context.Exact)
    (hm : Moving ε P s line p) {r : Nat} (hr : Ev.right r ∈ s.queue)
    (hp : s.evStart (.right r) = p)
    (ht : SameShape (popped s (.right r)) t) {s' : State K} {line' : List Nat}
    (h : handle linear context t line (.right r) = .ok (s', line')) :
    Moving ε P s' line' p ∧ Cuts p (fun _ => True) t s' := by
  have hb := hm.base
  have c := hb.clock
  have hw := c.wf
  have hv := hw.queueRight r hr
  obtain ⟨i, hi⟩ : ∃ i, (s.rights r).left = i := ⟨_, rfl⟩
  have hin : i < s.nextLeft := hi ▸ (hw.rightLeft r hv).1
  have hir : (s.lefts i).right = r := hi ▸ (hw.rightLeft r hv).2
  have hend : s.leftEnd i = p := by rw [← hi, hw.leftEnd_left hv]; exact hp
  have hst : (s.lefts i).start < p := hend ▸ hw.lt i hin
  have hil : i ∈ line := (hb.active i).mpr ⟨hin, fun hm => absurd (hb.queue _ hm) (not_le.mpr hst),
    hir ▸ hr⟩
  obtain ⟨l₁, l₂, e⟩ := List.append_of_mem hil
  subst e
  have m1 : ∀ n ∈ l₁, n ∈ l₁ ++ i :: l₂ := fun n hn => List.mem_append_left _ hn
  have m2 : ∀ n ∈ l₂, n ∈ l₁ ++ i :: l₂ := fun n hn =>
    List.mem_append_right _ (List.mem_cons_of_mem _ hn)
  have nd := List.nodup_cons.mp (List.nodup_middle.mp hb.nodup)
  have lts : ∀ i j, sweepLine.lt context t i j = sweepLine.lt context s i j := fun i j =>
    lt_shape ht context i j
  have below : sweepLine.AllBelow context t i l₁ := by
    intro n hn
    rw [lts, lts]
    have hn' := m1 n hn
    have hne : n ≠ i := fun e => nd.1 (e ▸ List.mem_append_left _ hn)
    have hk := (List.pairwise_append.mp hb.key).2.2 n hn i (List.mem_cons_self ..)
    exact (c.lt_of_key hc (hb.lt hn') hin hne (hst.le.trans (hb.le_end hn'))
      (hend ▸ hb.start_le hn') hk).symm
  have hit : (t.rights r).left = i := by rw [ht.rights]; exact hi
  obtain ⟨e0, h9⟩ := handle_right_ok h (by rw [hit]; exact sweepLine.contains_split below)
  rw [hit, sweepLine.remove_split below] at e0
  rw [hit, sweepLine.above_split below, sweepLine.below_split below] at h9
  subst e0
  have hbt : Base ε P t (l₁ ++ l₂) p := (hb.removed hr hi hp).shape ht
  have hwt := hbt.clock.wf
  have seg : ∀ i, t.seg i = s.seg i := fun i => ht.seg i
  have start : ∀ i, (t.lefts i).start = (s.lefts i).start := fun i => ht.start i
  have finish : ∀ i, t.leftEnd i = s.leftEnd i := fun i => ht.leftEnd i
  have fromTest : ∀ i, (t.lefts i).fromTest = (s.lefts i).fromTest := fun i => ht.fromTest i
  have starts : ∀ x, Starts s x → Starts t x := fun x hx => Starts.shape ht hx.pop_right
  have goes : ∀ u x, Goes ε s u x → Goes ε t u x := fun u x hx => Goes.shape ht hx.pop_right
  have sub : (l₁ ++ l₂).Sublist (l₁ ++ i :: l₂) :=
    (List.Sublist.refl l₁).append (List.sublist_cons_self i l₂)
  -- the neighbours are on different lines
  have apart : ∀ b ∈ l₁, ∀ a ∈ l₂, ¬ Same ε (t.seg b) (t.seg a) := by
    intro b hb' a ha hs
    rw [seg, seg] at hs
    rcases hm.phase with h | h
    · have h1 := (List.pairwise_append.mp h.sorted).2.2 b hb' i (List.mem_cons_self ..)
      have h2 := (List.pairwise_cons.mp (List.pairwise_append.mp h.sorted).2.1).1 a ha
      exact (h1.strict h2).not_same hs
    · have h1 := (List.pairwise_append.mp h.sorted).2.2 b hb' i (List.mem_cons_self ..)
      have h2 := (List.pairwise_cons.mp (List.pairwise_append.mp h.sorted).2.1).1 a ha
      exact (h1.strict h2).not_same hs
  -- no two pieces start together on a line at the point
  have single : ∀ x ∈ l₁ ++ l₂, ∀ y ∈ l₁ ++ l₂, (t.lefts x).start = p → (t.lefts y).start = p →
      x = y := by
    intro x hx y hy ex ey
    rw [start] at ex ey
    rcases hm.phase with h | h
    · exact absurd ex (h.before x (sub.subset hx)).ne
    · refine h.old i hil hst ?_ x (sub.subset hx) y (sub.subset hy) ex ey
      rw [← hend]; exact finish_mem _
  have cht : (l₁ ++ i :: l₂).IsChain (Settled ε t p) := hm.chain.imp fun x y h =>
    h.congr (seg x) (seg y) (goes _ _) (goes _ _)
  have ch1 : l₁.IsChain (Settled ε t p) := (List.isChain_append.mp cht).1
  have ch2 : l₂.IsChain (Settled ε t p) :=
    (List.isChain_cons.mp (List.isChain_append.mp cht).2.1).2
  have hd : ∀ a, l₂.head? = some a → a ∈ l₂ := fun a ha => List.mem_of_mem_head? ha
  have hl : ∀ b, l₁.getLast? = some b → b ∈ l₁ := fun b hb => List.mem_of_mem_getLast? hb
  have core : Cuts p (· ∈ l₁ ++ l₂) t s' ∧ (l₁ ++ l₂).IsChain (Settled ε s' p) := by
    rcases h9 with ⟨a, b, ha, hb', hdet⟩ | ⟨hnone, hf⟩
    · have ham := hd a ha
      have hbm := hl b hb'
      have ha2 : a ∈ l₁ ++ l₂ := List.mem_append_right _ ham
      have hb2 : b ∈ l₁ ++ l₂ := List.mem_append_left _ hbm
      have hns := apart b hbm a ham
      have hD : Detects p t b a s' := hdet.detects hc hwt (hbt.lt hb2) (hbt.lt ha2) fun z hz hz' hi => by
        by_contra hlt
        obtain ⟨k1, k2⟩ := hbt.past b (hbt.lt hb2) a (hbt.lt ha2) hns z hz hz' (not_le.mp hlt)
        rcases hi with hi | hi
        · exact hi.2 k1
        · exact hi.2 k2
      have keep : ∀ x ∈ l₁ ++ l₂, ∀ y ∈ l₁ ++ l₂, x ≠ y → Settled ε t p x y → Settled ε s' p x y := by
        intro x hx y hy hne h
        exact h.detects hbt hb2 ha2 hD hx hy fun _ e1 e2 => absurd (single x hx y hy e1 e2) hne
      refine ⟨hD.cuts.mono ?_, List.isChain_append.mpr ⟨?_, ?_, ?_⟩⟩
      · rintro x (rfl | rfl)
        · exact hb2
        · exact ha2
      · have nd1 : l₁.Pairwise (· ≠ ·) := (List.nodup_append.mp nd.2).1
        refine List.IsChain.imp_of_mem_imp ?_ (isChain_and ch1 nd1.isChain)
        rintro x y hx hy ⟨h, hne⟩
        exact keep x (List.mem_append_left _ hx) y (List.mem_append_left _ hy) hne h
      · have nd2 : l₂.Pairwise (· ≠ ·) := (List.nodup_append.mp nd.2).2.1
        refine List.IsChain.imp_of_mem_imp ?_ (isChain_and ch2 nd2.isChain)
        rintro x y hx hy ⟨h, hne⟩
        exact keep x (List.mem_append_right _ hx) y (List.mem_append_right _ hy) hne h
      · intro x hx y hy
        have ex : x = b := by rw [hb'] at hx; exact (Option.some.inj hx).symm
        have ey : y = a := by rw [ha] at hy; exact (Option.some.inj hy).symm
        subst ex ey
        refine ⟨fun hn => hD.cross fun hcol => hns ?_, fun hs => ?_⟩
        · exact (hbt.clock.same_iff (hbt.lt hb2) (hbt.lt ha2)).mpr hcol
        · exact absurd ((hbt.clock.same_congr hD.cuts.elems (hbt.lt hb2) (hbt.lt ha2)).mp hs) hns
    · refine ⟨(Cuts.refl t).flags hf, List.isChain_append.mpr
        ⟨ch1.imp fun _ _ h => h.shape hf.shape, ch2.imp fun _ _ h => h.shape hf.shape, ?_⟩⟩
      intro x hx y hy
      rcases hnone with h | h
      · rw [h] at hy; cases hy
      · rw [h] at hx; cases hx
  obtain ⟨cuts, chain⟩ := core
  have start' : ∀ i ∈ l₁ ++ l₂, (s'.lefts i).start = (s.lefts i).start := fun i hi =>
    (cuts.start hwt (hbt.lt hi)).trans (start i)
  have sub' : ∀ i ∈ l₁ ++ l₂, (s'.seg i).pts ⊆ (s.seg i).pts := fun i hi => by
    rw [← seg i]; exact cuts.elems.runs.seg_subset hwt (hbt.lt hi)
  refine ⟨⟨hbt.cuts cuts, chain, ?_⟩, cuts.mono fun _ _ => trivial⟩
  rcases hm.phase with h | h
  · refine .inl ⟨?_, ?_, ?_, ?_⟩
    · intro x hx; rw [start' x hx]; exact h.before x (sub.subset hx)
    · refine List.Pairwise.imp_of_mem (fun {x y} hx hy h => ?_) (h.sorted.sublist sub)
      refine hbt.clock.bef cuts.elems (hbt.lt hx) (hbt.lt hy) ?_
      unfold Bef Cls at h ⊢
      rw [seg, seg, fromTest, fromTest]; exact h
    · intro x hx hmem hlt
      have hle : s'.leftEnd x ≤ s.leftEnd x := by
        rw [← finish]
        rcases cuts.tail hwt (hbt.lt hx) with e | e
        · exact e.le
        · exact e.1.le
      exact (starts _ (h.wait x (sub.subset hx) (sub' x hx hmem) (hlt.trans_le hle))).mono hwt
        cuts.elems
    · intro x hx hmem hlt
      have hle : s'.leftEnd x ≤ s.leftEnd x := by
        rw [← finish]
        rcases cuts.tail hwt (hbt.lt hx) with e | e
        · exact e.le
        · exact e.1.le
      have same : ∀ i < t.nextLeft, Same ε (s'.seg i) (s.seg i) := fun i hi => by
        rw [← seg i]; exact (hbt.clock.same cuts.elems hi).symm
      rcases h.thru x (sub.subset hx) (sub' x hx hmem) (hlt.trans_le hle) with h1 | h1
      · exact .inl (((goes _ _ h1).mono hbt.clock cuts.elems).line (same x (hbt.lt hx)))
      · by_cases hg : Goes ε s' (s'.seg x) p
        · exact .inl hg
        · refine .inr fun e he hes hem => ?_
          by_cases hlt' : e < t.nextLeft
          · rw [cuts.start hwt hlt', start] at hes
            have hem' := cuts.elems.runs.seg_subset hwt hlt' hem
            rw [seg] at hem'
            obtain ⟨k1, k2⟩ := h1 e (hlt'.trans_eq ht.nextLeft) hes hem'
            have k3 : Same ε (s'.seg x) (s'.seg e) :=
              ((same x (hbt.lt hx)).trans k1).trans (same e hlt').symm
            refine ⟨k3, ?_⟩
            rcases Goes.tail hbt.clock cuts hlt' with e | ⟨-, e1, e2⟩
            · rw [e, finish]; exact k2
            · refine lt_of_le_of_ne e1 fun e' => hg ?_
              rw [← e'] at e2
              exact e2.line (k3.trans (hbt.clock.same cuts.elems hlt').symm)
          · exact absurd (cuts.new hwt (not_lt.mp hlt') he).2 (not_le.mpr hes)
  · refine .inr ⟨?_, ?_, ?_⟩
    · refine List.Pairwise.imp_of_mem (fun {x y} hx hy h => ?_) (h.sorted.sublist sub)
      refine hbt.clock.aft cuts.elems (hbt.lt hx) (hbt.lt hy) ?_
      unfold Aft Cls at h ⊢
      rw [seg, seg, fromTest, fromTest]; exact h
    · obtain ⟨k, hk, ek⟩ := h.some
      have hk' : k ∈ l₁ ++ l₂ := by
        rw [List.mem_append, List.mem_cons] at hk
        rw [List.mem_append]
        refine hk.imp id fun h => h.resolve_left fun e => ?_
        rw [e] at ek
        exact hst.ne ek
      exact ⟨k, hk', by rw [start' k hk']; exact ek⟩
    · intro o ho hlt hmem x hx y hy ex ey
      rw [start' o ho] at hlt
      rw [start' x hx] at ex
      rw [start' y hy] at ey
      exact h.old o (sub.subset ho) hlt (sub' o ho hmem) x (sub.subset hx) y (sub.subset hy) ex ey

/-- The next event is handled. -/
theorem Moving.handle {linear : Bool} {context : Context K} (hc : context.Exact)
    (hm : Moving ε P s line p) {e : Ev} (hpk : peek? context s = some e) (hp : s.evStart e = p)
    (ht : SameShape (popped s e) t) {s' : State K} {line' : List Nat}
    (h : eventsQueue.handle linear context t line e = .ok (s', line')) :
    Moving ε P s' line' p ∧ Cuts p (fun _ => True) t s' := by
  have he := peek?_mem hpk
  cases e with
  | left k =>
    refine hm.left hc he hp (fun r hr e => ?_) ht h
    have := (peek?_prec hpk _ hr).2 (hp.trans e.symm) rfl
    cases this
  | right r => exact hm.right hc he hp ht h

end

end Orient.eventsQueue
