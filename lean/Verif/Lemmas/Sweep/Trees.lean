import Verif.Model.Trees
import Verif.Spec.Containers
import Mathlib.Data.List.Perm.Basic

/-! Heaps and search trees satisfy the contracts. -/

namespace Orient

namespace Heap

theorem peek_none {q : Heap} (h : q.peek = none) : q = nil := by
  cases q with
  | nil => rfl
  | node e l r => cases h

theorem peek_items {q : Heap} {e : Ev} (h : q.peek = some e) : ∃ l, q.items = e :: l := by
  cases q with
  | nil => cases h
  | node x l r =>
    cases h
    exact ⟨_, rfl⟩

theorem peek_least {lt : Ev → Ev → Bool} {q : Heap} (ho : q.Ordered lt) {e : Ev}
    (h : q.peek = some e) : e ∈ q.items ∧ ∀ e' ∈ q.items, e' ≠ e → lt e e' = true := by
  cases q with
  | nil => cases h
  | node x l r =>
    cases h
    refine ⟨by simp [items], fun e' he' hne => ho.1 e' ?_ hne⟩
    simpa [items, hne] using he'

theorem ordered_congr {lt lt' : Ev → Ev → Bool} {q : Heap} (ho : q.Ordered lt)
    (h : ∀ a ∈ q.items, ∀ b ∈ q.items, a ≠ b → lt' a b = lt a b) : q.Ordered lt' := by
  induction q with
  | nil => trivial
  | node x l r ihl ihr =>
    have ml : ∀ a ∈ l.items, a ∈ (node x l r).items := fun a ha => by simp [items, ha]
    have mr : ∀ a ∈ r.items, a ∈ (node x l r).items := fun a ha => by simp [items, ha]
    refine ⟨fun e he hne => ?_, ihl ho.2.1 fun a ha b hb => h a (ml a ha) b (ml b hb),
      ihr ho.2.2 fun a ha b hb => h a (mr a ha) b (mr b hb)⟩
    rw [h x (by simp [items]) e (List.mem_cons_of_mem _ he) hne.symm]
    exact ho.1 e he hne

theorem push_items (lt : Ev → Ev → Bool) (e : Ev) (q : Heap) :
    (q.push lt e).items.Perm (e :: q.items) := by
  induction q generalizing e with
  | nil => exact .refl _
  | node x l r _ ih =>
    simp only [push]
    split
    · refine List.Perm.cons _ ?_
      exact ((ih x).append_right _).trans (List.Perm.cons _ List.perm_append_comm)
    · refine (List.Perm.cons x (((ih e).append_right _).trans
        (List.Perm.cons _ List.perm_append_comm))).trans ?_
      exact List.Perm.swap ..

theorem push_ordered {lt : Ev → Ev → Bool} {e : Ev} {q : Heap} (ho : q.Ordered lt)
    (hn : (e :: q.items).Nodup) (hs : StrictOn lt (e :: q.items)) : (q.push lt e).Ordered lt := by
  induction q generalizing e with
  | nil => simp [push, Ordered, items]
  | node x l r _ ih =>
    obtain ⟨h1, h2, h3⟩ := ho
    have hne : e ≠ x := fun h => (List.nodup_cons.mp hn).1 (by simp [items, h])
    have hn' := List.nodup_cons.mp (List.nodup_cons.mp hn).2
    have hnr : r.items.Nodup := (List.nodup_append.mp hn'.2).2.1
    have sub : ∀ {a : Ev}, a = e ∨ a = x → ∀ b ∈ a :: r.items, b ∈ e :: (node x l r).items := by
      rintro a (rfl | rfl) b hb
      · rcases List.mem_cons.mp hb with rfl | hb <;> simp [items, *]
      · rcases List.mem_cons.mp hb with rfl | hb <;> simp [items, *]
    have mono : ∀ {a : Ev}, a = e ∨ a = x → StrictOn lt (a :: r.items) := fun ha =>
      ⟨fun a h1 b h2 => hs.total a (sub ha a h1) b (sub ha b h2),
        fun a h1 b h2 c h3 => hs.trans a (sub ha a h1) b (sub ha b h2) c (sub ha c h3)⟩
    have he : e ∈ e :: (node x l r).items := by simp
    have hx : x ∈ e :: (node x l r).items := by simp [items]
    have hall : ∀ y ∈ l.items ++ r.items, y ∈ e :: (node x l r).items := fun y hy =>
      List.mem_cons_of_mem _ (List.mem_cons_of_mem _ hy)
    simp only [push]
    split
    · next hlt =>
      refine ⟨fun y hy hye => ?_, ih h3 (List.nodup_cons.mpr ⟨fun h => hn'.1
        (List.mem_append_right _ h), hnr⟩) (mono (.inr rfl)), h2⟩
      rw [((push_items lt x r).append_right _).mem_iff] at hy
      rcases List.mem_cons.mp hy with rfl | hy
      · exact hlt
      · have hy' : y ∈ l.items ++ r.items := by
          have hy : y ∈ r.items ++ l.items := hy
          rw [List.mem_append] at hy ⊢; exact hy.symm
        have hyx : y ≠ x := fun h => hn'.1 (h ▸ hy')
        exact hs.trans e he x hx y (hall y hy') hne hyx.symm hye.symm hlt (h1 y hy' hyx)
    · next hlt =>
      refine ⟨fun y hy hyx => ?_, ih h3 (List.nodup_cons.mpr ⟨fun h =>
        (List.nodup_cons.mp hn).1 (by simp [items, h]), hnr⟩) (mono (.inl rfl)), h2⟩
      rw [((push_items lt e r).append_right _).mem_iff] at hy
      rcases List.mem_cons.mp hy with rfl | hy
      · rw [hs.total x hx y he hyx.symm]
        simpa using hlt
      · have hy : y ∈ r.items ++ l.items := hy
        exact h1 y (by rw [List.mem_append] at hy ⊢; exact hy.symm) hyx

theorem pop_items {lt : Ev → Ev → Bool} {q : Heap} {e : Ev} {rest : List Ev}
    (h : q.items = e :: rest) : (q.pop lt).items.Perm rest := by
  induction q generalizing e rest with
  | nil => cases h
  | node x l r ihl ihr =>
    simp only [items, List.cons.injEq] at h
    obtain ⟨rfl, rfl⟩ := h
    simp only [pop]
    cases hl : l.peek with
    | none =>
      rw [peek_none hl]
      exact .refl _
    | some a =>
      cases hr : r.peek with
      | none =>
        rw [peek_none hr]
        simp [items]
      | some b =>
        obtain ⟨l', hl'⟩ := peek_items hl
        obtain ⟨r', hr'⟩ := peek_items hr
        simp only
        split
        · rw [hl']
          exact List.Perm.cons _ ((ihl hl').append_right _)
        · rw [hr']
          refine (List.Perm.cons _ ((ihr hr').append_left _)).trans ?_
          exact List.perm_middle.symm

theorem pop_ordered {lt : Ev → Ev → Bool} {q : Heap} (ho : q.Ordered lt) (hn : q.items.Nodup)
    (hs : StrictOn lt q.items) : (q.pop lt).Ordered lt := by
  induction q with
  | nil => trivial
  | node x l r ihl ihr =>
    obtain ⟨h1, h2, h3⟩ := ho
    have hn' := List.nodup_cons.mp hn
    obtain ⟨nl, nr, disj⟩ := List.nodup_append.mp hn'.2
    have subl : ∀ b ∈ l.items, b ∈ (node x l r).items := fun b hb => by simp [items, hb]
    have subr : ∀ b ∈ r.items, b ∈ (node x l r).items := fun b hb => by simp [items, hb]
    have sl : StrictOn lt l.items := ⟨fun a h1 b h2 => hs.total a (subl a h1) b (subl b h2),
        fun a h1 b h2 c h3 => hs.trans a (subl a h1) b (subl b h2) c (subl c h3)⟩
    have sr : StrictOn lt r.items := ⟨fun a h1 b h2 => hs.total a (subr a h1) b (subr b h2),
        fun a h1 b h2 c h3 => hs.trans a (subr a h1) b (subr b h2) c (subr c h3)⟩
    simp only [pop]
    cases hl : l.peek with
    | none => exact h3
    | some a =>
      cases hr : r.peek with
      | none => exact h2
      | some b =>
        obtain ⟨l', hl'⟩ := peek_items hl
        obtain ⟨r', hr'⟩ := peek_items hr
        obtain ⟨ma, la⟩ := peek_least h2 hl
        obtain ⟨mb, lb⟩ := peek_least h3 hr
        have hab : a ≠ b := disj a ma b mb
        simp only
        split
        · next hlt =>
          refine ⟨fun y hy hya => ?_, ihl h2 nl sl, h3⟩
          rcases List.mem_append.mp hy with hy | hy
          · have : y ∈ l' := (pop_items hl').mem_iff.mp hy
            exact la y (by rw [hl']; exact List.mem_cons_of_mem _ this) hya
          · by_cases hyb : y = b
            · exact hyb ▸ hlt
            · exact hs.trans a (subl a ma) b (subr b mb) y (subr y hy) hab (Ne.symm hyb) hya.symm hlt
                (lb y hy hyb)
        · next hlt =>
          have hlt : lt b a = true := by
            rw [hs.total b (subr b mb) a (subl a ma) hab.symm]
            simpa using hlt
          refine ⟨fun y hy hyb => ?_, h2, ihr h3 nr sr⟩
          rcases List.mem_append.mp hy with hy | hy
          · by_cases hya : y = a
            · exact hya ▸ hlt
            · exact hs.trans b (subr b mb) a (subl a ma) y (subl y hy) hab.symm (Ne.symm hya) hyb.symm
                hlt (la y hy hya)
          · have : y ∈ r' := (pop_items hr').mem_iff.mp hy
            exact lb y (by rw [hr']; exact List.mem_cons_of_mem _ this) hyb

end Heap

theorem heap_correct : heap.Correct Heap.items Heap.Ordered where
  empty := ⟨rfl, fun _ => trivial⟩
  congr _ _ _ ho h := Heap.ordered_congr ho h
  push lt q e ho hn hs := ⟨Heap.push_items lt e q, Heap.push_ordered ho hn hs⟩
  peek_none lt q _ _ _ h := by
    rw [Heap.peek_none h]
    rfl
  peek_some lt q e ho _ _ h := Heap.peek_least ho h
  pop lt q e ho hn hs h := by
    obtain ⟨l, hl⟩ := Heap.peek_items h
    refine ⟨?_, Heap.pop_ordered ho hn hs⟩
    rw [hl, List.erase_cons_head]
    exact Heap.pop_items hl

/-! ### search trees -/

/-- The comparisons of an element with those which come before and after it. -/
structure Around (lt : Nat → Nat → Bool) (e : Nat) (l₁ l₂ : List Nat) : Prop where
  self : lt e e = false
  before : ∀ x ∈ l₁, lt x e = true ∧ lt e x = false
  after : ∀ x ∈ l₂, lt e x = true ∧ lt x e = false

theorem Increasing.around {lt : Nat → Nat → Bool} {l₁ l₂ : List Nat} {e : Nat}
    (h : Increasing lt (l₁ ++ e :: l₂)) : Around lt e l₁ l₂ := by
  obtain ⟨-, h2, h3⟩ := List.pairwise_append.mp h.pairwise
  refine ⟨h.irrefl e (by simp), fun x hx => h3 x hx e (by simp), fun x hx => ?_⟩
  exact (List.pairwise_cons.mp h2).1 x hx

namespace Tree

variable {C : Type}

/-- Where the root is. -/
theorem split {l r l₁ l₂ : List Nat} {x e : Nat} (h : l ++ x :: r = l₁ ++ e :: l₂) :
    (∃ k, l = l₁ ++ e :: k ∧ l₂ = k ++ x :: r) ∨ (l = l₁ ∧ x = e ∧ r = l₂) ∨
      ∃ k, l₁ = l ++ x :: k ∧ r = k ++ e :: l₂ := by
  rcases List.append_eq_append_iff.mp h with ⟨k, h1, h2⟩ | ⟨k, h1, h2⟩
  · cases k with
    | nil =>
      simp only [List.nil_append, List.cons.injEq] at h2
      exact .inr (.inl ⟨by simpa using h1.symm, h2.1, h2.2⟩)
    | cons y k =>
      simp only [List.cons_append, List.cons.injEq] at h2
      obtain ⟨rfl, rfl⟩ := h2
      exact .inr (.inr ⟨k, h1, rfl⟩)
  · cases k with
    | nil =>
      simp only [List.nil_append, List.cons.injEq] at h2
      exact .inr (.inl ⟨by simpa using h1, h2.1.symm, h2.2.symm⟩)
    | cons y k =>
      simp only [List.cons_append, List.cons.injEq] at h2
      obtain ⟨rfl, rfl⟩ := h2
      exact .inl ⟨k, h1, rfl⟩

/-- On which side the root is. -/
theorem split' {l r l₁ l₂ : List Nat} {x : Nat} (h : l ++ x :: r = l₁ ++ l₂) :
    (∃ k, l = l₁ ++ k ∧ l₂ = k ++ x :: r) ∨ ∃ k, l₁ = l ++ x :: k ∧ r = k ++ l₂ := by
  rcases List.append_eq_append_iff.mp h with ⟨k, h1, h2⟩ | ⟨k, h1, h2⟩
  · cases k with
    | nil => exact .inl ⟨[], by simpa using h1.symm, by simpa using h2.symm⟩
    | cons y k =>
      simp only [List.cons_append, List.cons.injEq] at h2
      obtain ⟨rfl, rfl⟩ := h2
      exact .inr ⟨k, h1, rfl⟩
  · exact .inl ⟨k, h1, h2⟩

theorem contains_split {lt : Nat → Nat → Bool} {e : Nat} (t : Tree C) {l₁ l₂ : List Nat}
    (h : t.inorder = l₁ ++ e :: l₂) (ha : Around lt e l₁ l₂) : t.contains lt e = true := by
  induction t generalizing l₁ l₂ with
  | nil => simp [inorder] at h
  | node c l x r ihl ihr =>
    simp only [contains]
    rcases split h with ⟨k, h1, rfl⟩ | ⟨h1, rfl, h2⟩ | ⟨k, rfl, h2⟩
    · rw [if_pos (ha.after x (by simp)).1]
      exact ihl h1 ⟨ha.self, ha.before, fun y hy => ha.after y (by simp [hy])⟩
    · simp [ha.self]
    · obtain ⟨a1, a2⟩ := ha.before x (by simp)
      simp only [a1, a2, Bool.false_eq_true, if_false, if_true]
      exact ihr h2 ⟨ha.self, fun y hy => ha.before y (by simp [hy]), ha.after⟩

theorem add_split {mark : C} {lt : Nat → Nat → Bool} {e : Nat} (t : Tree C) {l₁ l₂ : List Nat}
    (h : t.inorder = l₁ ++ l₂) (ha : Around lt e l₁ l₂) :
    (t.add mark lt e).inorder = l₁ ++ e :: l₂ := by
  induction t generalizing l₁ l₂ with
  | nil =>
    simp only [inorder, List.nil_eq, List.append_eq_nil_iff] at h
    obtain ⟨rfl, rfl⟩ := h
    rfl
  | node c l x r ihl ihr =>
    simp only [add]
    rcases split' h with ⟨k, h1, rfl⟩ | ⟨k, rfl, h2⟩
    · rw [if_pos (ha.after x (by simp)).1]
      simp only [inorder]
      rw [ihl h1 ⟨ha.self, ha.before, fun y hy => ha.after y (by simp [hy])⟩]
      simp
    · obtain ⟨a1, a2⟩ := ha.before x (by simp)
      simp only [a1, a2, Bool.false_eq_true, if_false, if_true, inorder]
      rw [ihr h2 ⟨ha.self, fun y hy => ha.before y (by simp [hy]), ha.after⟩]
      simp

theorem attach_inorder (s t : Tree C) : (attach s t).inorder = s.inorder ++ t.inorder := by
  induction t with
  | nil => simp [attach, inorder]
  | node c l x r ihl _ => simp [attach, inorder, ihl]

theorem remove_split {lt : Nat → Nat → Bool} {e : Nat} (t : Tree C) {l₁ l₂ : List Nat}
    (h : t.inorder = l₁ ++ e :: l₂) (ha : Around lt e l₁ l₂) :
    (t.remove lt e).inorder = l₁ ++ l₂ := by
  induction t generalizing l₁ l₂ with
  | nil => simp [inorder] at h
  | node c l x r ihl ihr =>
    simp only [remove]
    rcases split h with ⟨k, h1, rfl⟩ | ⟨h1, rfl, h2⟩ | ⟨k, rfl, h2⟩
    · rw [if_pos (ha.after x (by simp)).1]
      simp only [inorder]
      rw [ihl h1 ⟨ha.self, ha.before, fun y hy => ha.after y (by simp [hy])⟩]
      simp
    · simp [ha.self, attach_inorder, h1, h2]
    · obtain ⟨a1, a2⟩ := ha.before x (by simp)
      simp only [a1, a2, Bool.false_eq_true, if_false, if_true, inorder]
      rw [ihr h2 ⟨ha.self, fun y hy => ha.before y (by simp [hy]), ha.after⟩]
      simp

theorem next_none {lt : Nat → Nat → Bool} {e : Nat} (t : Tree C)
    (h : ∀ x ∈ t.inorder, lt e x = false) : t.next lt e = none := by
  induction t with
  | nil => rfl
  | node c l x r _ ihr =>
    simp only [next]
    rw [if_neg (by simp [h x (by simp [inorder])])]
    exact ihr fun y hy => h y (by simp [inorder, hy])

theorem next_all {lt : Nat → Nat → Bool} {e : Nat} (t : Tree C)
    (h : ∀ x ∈ t.inorder, lt e x = true) : t.next lt e = t.inorder.head? := by
  induction t with
  | nil => rfl
  | node c l x r ihl _ =>
    simp only [next]
    rw [if_pos (h x (by simp [inorder])), ihl fun y hy => h y (by simp [inorder, hy])]
    simp only [inorder]
    cases l.inorder <;> rfl

theorem next_split {lt : Nat → Nat → Bool} {e : Nat} (t : Tree C) {l₁ l₂ : List Nat}
    (h : t.inorder = l₁ ++ e :: l₂) (ha : Around lt e l₁ l₂) : t.next lt e = l₂.head? := by
  induction t generalizing l₁ l₂ with
  | nil => simp [inorder] at h
  | node c l x r ihl ihr =>
    simp only [next]
    rcases split h with ⟨k, h1, rfl⟩ | ⟨h1, rfl, h2⟩ | ⟨k, rfl, h2⟩
    · rw [if_pos (ha.after x (by simp)).1,
        ihl h1 ⟨ha.self, ha.before, fun y hy => ha.after y (by simp [hy])⟩]
      cases k <;> rfl
    · rw [if_neg (by simp [ha.self]), next_all r (fun y hy => (ha.after y (h2 ▸ hy)).1), h2]
    · rw [if_neg (by simp [(ha.before x (by simp)).2])]
      exact ihr h2 ⟨ha.self, fun y hy => ha.before y (by simp [hy]), ha.after⟩

theorem prev_all {lt : Nat → Nat → Bool} {e : Nat} (t : Tree C)
    (h : ∀ x ∈ t.inorder, lt x e = true) : t.prev lt e = t.inorder.getLast? := by
  induction t with
  | nil => rfl
  | node c l x r _ ihr =>
    simp only [prev]
    rw [if_pos (h x (by simp [inorder])), ihr fun y hy => h y (by simp [inorder, hy])]
    simp only [inorder]
    rw [List.getLast?_append, List.getLast?_cons]
    simp

theorem prev_split {lt : Nat → Nat → Bool} {e : Nat} (t : Tree C) {l₁ l₂ : List Nat}
    (h : t.inorder = l₁ ++ e :: l₂) (ha : Around lt e l₁ l₂) : t.prev lt e = l₁.getLast? := by
  induction t generalizing l₁ l₂ with
  | nil => simp [inorder] at h
  | node c l x r ihl ihr =>
    simp only [prev]
    rcases split h with ⟨k, h1, rfl⟩ | ⟨h1, rfl, h2⟩ | ⟨k, rfl, h2⟩
    · rw [if_neg (by simp [(ha.after x (by simp)).2])]
      exact ihl h1 ⟨ha.self, ha.before, fun y hy => ha.after y (by simp [hy])⟩
    · rw [if_neg (by simp [ha.self]), prev_all l (fun y hy => (ha.before y (h1 ▸ hy)).1), h1]
    · rw [if_pos (ha.before x (by simp)).1,
        ihr h2 ⟨ha.self, fun y hy => ha.before y (by simp [hy]), ha.after⟩,
        List.getLast?_append, List.getLast?_cons]
      simp

end Tree

/-- However the tree is restructured, as long as the order of its elements is kept. -/
theorem searchTree_correct {C : Type} (mark : C) {added removed : Nat → Tree C → Tree C}
    (h1 : ∀ e t, (added e t).inorder = t.inorder) (h2 : ∀ e t, (removed e t).inorder = t.inorder) :
    (searchTree mark added removed).Correct Tree.inorder where
  empty := rfl
  contains _ z _ _ _ h hi := z.contains_split h hi.around
  add _ z _ _ _ h hi := (h1 ..).trans (z.add_split h hi.around)
  remove _ z _ _ _ h hi := (h2 ..).trans (z.remove_split h hi.around)
  next _ z _ _ _ h hi := z.next_split h hi.around
  prev _ z _ _ _ h hi := z.prev_split h hi.around

end Orient
