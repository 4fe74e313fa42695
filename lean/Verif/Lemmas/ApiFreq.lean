import Verif.Spec.ApiFreq
import Mathlib.Tactic.SplitIfs
/-!
# Handles and memory
-/
namespace LDT
namespace Fh
open Fq Text

theorem attempt_ok {α : Type} {o : Outcome α} {r : Option α} (h : attempt o = .ok r) : (∃ a, o = .ok a ∧ r = some a) ∨ (o = .throws ∧ r = none) := by
  cases o with
  | ok a => cases h; exact .inl ⟨a, rfl, rfl⟩
  | throws => cases h; exact .inr ⟨rfl, rfl⟩
  | ub => cases h
  | diverges => cases h

theorem bind_ok {α β : Type} {o : Outcome α} {f : α → Outcome β} {b : β} (h : (o >>= f) = .ok b) : ∃ a, o = .ok a ∧ f a = .ok b := by
  cases o with
  | ok a => exact ⟨a, rfl, h⟩
  | throws => cases h
  | ub => cases h
  | diverges => cases h

/-- What the memory holds for the handles. -/
structure Rel (h : Heap) (t : Table) : Prop where
  fresh : h.fresh = t.fresh
  dead : ∀ p, t.at_ p = none → h.cells p = none
  live : ∀ p e, t.at_ p = some e → h.cells p = some ⟨bare e.val, if isList e.val then some e.origin else none⟩
  items : ∀ p e, t.at_ p = some e → isList e.val = true → itemsOf e.val ≠ none ∧ h.lists e.origin = itemsOf e.val
  bound : ∀ p e, t.at_ p = some e → p < t.fresh ∧ e.origin < t.fresh
  owned : ∀ a it, h.lists a = some it → ∃ p e, t.at_ p = some e ∧ isList e.val = true ∧ e.origin = a

theorem rel_empty : Rel Heap.empty Table.empty := by
  constructor <;> intros <;> simp_all [Heap.empty, Table.empty]

theorem isList_bare (f : Freq) : isList (bare f) = isList f := by cases f <;> rfl
theorem cls_bare (f : Freq) : (bare f).cls = f.cls := by cases f <;> rfl
theorem toStr_bare (f : Freq) : (bare f).toStr = f.toStr := by cases f <;> rfl
theorem classStr_bare (f : Freq) : (bare f).classStr = f.classStr := by cases f <;> rfl
theorem check_bare (f g : Freq) : checkClassEquality (bare f) (bare g) = checkClassEquality f g := by
  unfold checkClassEquality; rw [cls_bare, cls_bare, classStr_bare, classStr_bare]
theorem items_not {f : Freq} (h : isList f = false) : itemsOf f = none := by cases f <;> first | rfl | cases h
theorem bare_not {f : Freq} (h : isList f = false) : bare f = f := by cases f <;> first | rfl | cases h

theorem fl_next_items {α : Type} [DecidableEq α] {f g : FL α} {n : Int} (h : f.next n = .ok g) : g.items = f.items := by
  unfold FL.next at h
  cases hi : f.items with
  | none => rw [hi] at h; cases h
  | some l =>
    rw [hi] at h
    dsimp only at h
    by_cases hc : (if (if f.outIndex = 0 then indexOf l f.value else -1) = -1 then (if f.outIndex > 0 then f.outIndex + ((l.length : Int) - 1) else f.outIndex)
        else (if f.outIndex = 0 then indexOf l f.value else -1)) + n < (l.length : Int) ∧
        (if (if f.outIndex = 0 then indexOf l f.value else -1) = -1 then (if f.outIndex > 0 then f.outIndex + ((l.length : Int) - 1) else f.outIndex)
        else (if f.outIndex = 0 then indexOf l f.value else -1)) + n ≥ 0
    · rw [if_pos hc] at h
      obtain ⟨v, -, h⟩ := bind_ok h; cases h; rfl
    · rw [if_neg hc] at h
      cases h; rfl

theorem next_keeps {f g : Freq} {n : Int} (h : f.next n = .ok g) : isList g = isList f ∧ itemsOf g = itemsOf f := by
  cases f with
  | cs p => cases h; exact ⟨rfl, rfl⟩
  | year f => obtain ⟨x, -, h⟩ := bind_ok h; cases h; exact ⟨rfl, rfl⟩
  | week f => obtain ⟨x, -, h⟩ := bind_ok h; cases h; exact ⟨rfl, rfl⟩
  | day f => obtain ⟨x, -, h⟩ := bind_ok h; cases h; exact ⟨rfl, rfl⟩
  | listS f => obtain ⟨x, hx, h⟩ := bind_ok h; cases h; exact ⟨rfl, by simp only [itemsOf, fl_next_items hx]⟩
  | listD f => obtain ⟨x, hx, h⟩ := bind_ok h; cases h; exact ⟨rfl, by simp only [itemsOf, fl_next_items hx]⟩

theorem fetch_of {h : Heap} {t : Table} (r : Rel h t) {p : Option ℕ} {e : ℕ × Entry} (he : t.get p = .ok e) :
    p = some e.1 ∧ t.at_ e.1 = some e.2 ∧ h.fetch p = .ok (e.1, ⟨bare e.2.val, if isList e.2.val then some e.2.origin else none⟩) := by
  cases p with
  | none => cases he
  | some p =>
    unfold Table.get at he
    dsimp only at he
    cases ht : t.at_ p with
    | none => rw [ht] at he; cases he
    | some d =>
      rw [ht] at he; cases he
      refine ⟨rfl, ht, ?_⟩
      unfold Heap.fetch
      dsimp only
      rw [r.live p d ht]

theorem load_of {h : Heap} {t : Table} (r : Rel h t) {p : ℕ} {e : Entry} (he : t.at_ p = some e) :
    h.load ⟨bare e.val, if isList e.val then some e.origin else none⟩ = .ok e.val := by
  have hi := r.items p e he
  rcases e with ⟨f, o⟩
  cases f with
  | listS f =>
    obtain ⟨h1, h2⟩ := hi rfl
    cases hf : f.items with
    | none => exact absurd (by simp [itemsOf, hf]) h1
    | some l =>
      have h2' : h.lists o = some (.inl l) := by rw [h2]; simp [itemsOf, hf]
      simp only [Heap.load, bare, isList, if_true, h2']
      rw [← hf]
  | listD f =>
    obtain ⟨h1, h2⟩ := hi rfl
    cases hf : f.items with
    | none => exact absurd (by simp [itemsOf, hf]) h1
    | some l =>
      have h2' : h.lists o = some (.inr l) := by rw [h2]; simp [itemsOf, hf]
      simp only [Heap.load, bare, isList, if_true, h2']
      rw [← hf]
  | _ => rfl

/-- Every created list has items. -/
theorem create_items {s c : Str} {k : Option FClass} {f : Freq} (h : createBody s c = .ok (k, some f)) (hl : isList f = true) : itemsOf f ≠ none := by
  unfold createBody at h
  obtain ⟨r, hr, h⟩ := bind_ok h
  cases r with
  | none => cases h
  | some g =>
    obtain ⟨k', -, h⟩ := bind_ok h
    obtain ⟨x, hx, h⟩ := bind_ok h
    cases h
    obtain ⟨y, hy, e⟩ | ⟨-, e⟩ := attempt_ok hx
    · cases e
      cases g with
      | listS g =>
        obtain ⟨z, hz, hy⟩ := bind_ok hy
        cases hy
        unfold FL.parseListS at hz
        obtain ⟨_, -, hz⟩ := bind_ok hz
        obtain ⟨_, -, hz⟩ := bind_ok hz
        cases hz
        simp [itemsOf]
      | listD g =>
        obtain ⟨z, hz, hy⟩ := bind_ok hy
        cases hy
        unfold FL.parseListD at hz
        obtain ⟨_, -, hz⟩ := bind_ok hz
        obtain ⟨_, -, hz⟩ := bind_ok hz
        obtain ⟨_, -, hz⟩ := bind_ok hz
        obtain ⟨_, -, hz⟩ := bind_ok hz
        cases hz
        simp [itemsOf]
      | _ => cases hy; cases hl
    · cases e

theorem rel_alloc {h : Heap} {t : Table} (r : Rel h t) {f : Freq} (hf : isList f = true → itemsOf f ≠ none) :
    (h.alloc f).2 = t.fresh ∧ Rel (h.alloc f).1 ⟨Function.update t.at_ t.fresh (some ⟨f, t.fresh⟩), t.fresh + 1⟩ := by
  have hold : t.at_ t.fresh = none := by
    cases ht : t.at_ t.fresh with
    | none => rfl
    | some e => exact absurd (r.bound _ _ ht).1 (Nat.lt_irrefl _)
  cases hi : itemsOf f with
  | none =>
    have hl : isList f = false := by
      cases hl : isList f with
      | false => rfl
      | true => exact absurd hi (hf hl)
    have e : h.alloc f = (⟨Function.update h.cells h.fresh (some ⟨bare f, none⟩), h.lists, h.fresh + 1⟩, h.fresh) := by
      unfold Heap.alloc; rw [hi]
    rw [e]
    refine ⟨r.fresh, ?_⟩
    constructor
    · exact congrArg (· + 1) r.fresh
    · intro p hp
      by_cases h0 : p = t.fresh
      · subst h0; simp at hp
      · simp only [Function.update_of_ne h0] at hp
        simp only [r.fresh, Function.update_of_ne h0, r.dead p hp]
    · intro p d hp
      by_cases h0 : p = t.fresh
      · subst h0; simp only [Function.update_self, Option.some.injEq] at hp; subst hp
        simp [r.fresh, hl]
      · simp only [Function.update_of_ne h0] at hp
        simp only [r.fresh, Function.update_of_ne h0, r.live p d hp]
    · intro p d hp hd
      by_cases h0 : p = t.fresh
      · subst h0; simp only [Function.update_self, Option.some.injEq] at hp; subst hp
        rw [hl] at hd; cases hd
      · simp only [Function.update_of_ne h0] at hp
        exact r.items p d hp hd
    · intro p d hp
      by_cases h0 : p = t.fresh
      · subst h0; simp only [Function.update_self, Option.some.injEq] at hp; subst hp
        exact ⟨Nat.lt_succ_self _, Nat.lt_succ_self _⟩
      · simp only [Function.update_of_ne h0] at hp
        exact ⟨Nat.lt_succ_of_lt (r.bound p d hp).1, Nat.lt_succ_of_lt (r.bound p d hp).2⟩
    · intro a it ha
      obtain ⟨p, d, hp, hd, ho⟩ := r.owned a it ha
      refine ⟨p, d, ?_, hd, ho⟩
      have h0 : p ≠ t.fresh := fun h => by rw [h, hold] at hp; cases hp
      simp only [Function.update_of_ne h0, hp]
  | some it =>
    have hl : isList f = true := by
      cases hl : isList f with
      | true => rfl
      | false => rw [items_not hl] at hi; cases hi
    have e : h.alloc f = (⟨Function.update h.cells h.fresh (some ⟨bare f, some h.fresh⟩), Function.update h.lists h.fresh (some it), h.fresh + 1⟩, h.fresh) := by
      unfold Heap.alloc; rw [hi]
    rw [e]
    refine ⟨r.fresh, ?_⟩
    constructor
    · exact congrArg (· + 1) r.fresh
    · intro p hp
      by_cases h0 : p = t.fresh
      · subst h0; simp at hp
      · simp only [Function.update_of_ne h0] at hp
        simp only [r.fresh, Function.update_of_ne h0, r.dead p hp]
    · intro p d hp
      by_cases h0 : p = t.fresh
      · subst h0; simp only [Function.update_self, Option.some.injEq] at hp; subst hp
        simp [r.fresh, hl]
      · simp only [Function.update_of_ne h0] at hp
        simp only [r.fresh, Function.update_of_ne h0, r.live p d hp]
    · intro p d hp hd
      by_cases h0 : p = t.fresh
      · subst h0; simp only [Function.update_self, Option.some.injEq] at hp; subst hp
        simp [r.fresh, hi]
      · simp only [Function.update_of_ne h0] at hp
        refine ⟨(r.items p d hp hd).1, ?_⟩
        have : d.origin ≠ t.fresh := Nat.ne_of_lt (r.bound p d hp).2
        simp only [r.fresh, Function.update_of_ne this]
        exact (r.items p d hp hd).2
    · intro p d hp
      by_cases h0 : p = t.fresh
      · subst h0; simp only [Function.update_self, Option.some.injEq] at hp; subst hp
        exact ⟨Nat.lt_succ_self _, Nat.lt_succ_self _⟩
      · simp only [Function.update_of_ne h0] at hp
        exact ⟨Nat.lt_succ_of_lt (r.bound p d hp).1, Nat.lt_succ_of_lt (r.bound p d hp).2⟩
    · intro a it' ha
      by_cases ha0 : a = t.fresh
      · exact ⟨t.fresh, ⟨f, t.fresh⟩, by simp, hl, ha0.symm⟩
      · simp only [r.fresh, Function.update_of_ne ha0] at ha
        obtain ⟨p, d, hp, hd, ho⟩ := r.owned a it' ha
        refine ⟨p, d, ?_, hd, ho⟩
        have h0 : p ≠ t.fresh := fun h => by rw [h, hold] at hp; cases hp
        simp only [Function.update_of_ne h0, hp]

theorem rel_copy {h : Heap} {t : Table} (r : Rel h t) {p : ℕ} {e : Entry} (he : t.at_ p = some e) :
    Rel ⟨Function.update h.cells h.fresh (some ⟨bare e.val, if isList e.val then some e.origin else none⟩), h.lists, h.fresh + 1⟩
      ⟨Function.update t.at_ t.fresh (some e), t.fresh + 1⟩ := by
  have hold : t.at_ t.fresh = none := by
    cases ht : t.at_ t.fresh with
    | none => rfl
    | some e => exact absurd (r.bound _ _ ht).1 (Nat.lt_irrefl _)
  constructor
  · exact congrArg (· + 1) r.fresh
  · intro p hp
    by_cases h0 : p = t.fresh
    · subst h0; simp at hp
    · simp only [Function.update_of_ne h0] at hp
      simp only [r.fresh, Function.update_of_ne h0, r.dead p hp]
  · intro p d hp
    by_cases h0 : p = t.fresh
    · subst h0; simp only [Function.update_self, Option.some.injEq] at hp; subst hp
      simp [r.fresh]
    · simp only [Function.update_of_ne h0] at hp
      simp only [r.fresh, Function.update_of_ne h0, r.live p d hp]
  · intro p' d hp hd
    by_cases h0 : p' = t.fresh
    · subst h0; simp only [Function.update_self, Option.some.injEq] at hp; subst hp
      exact r.items p _ he hd
    · simp only [Function.update_of_ne h0] at hp
      exact r.items p' d hp hd
  · intro p' d hp
    by_cases h0 : p' = t.fresh
    · subst h0; simp only [Function.update_self, Option.some.injEq] at hp; subst hp
      exact ⟨Nat.lt_succ_self _, Nat.lt_succ_of_lt (r.bound p _ he).2⟩
    · simp only [Function.update_of_ne h0] at hp
      exact ⟨Nat.lt_succ_of_lt (r.bound p' d hp).1, Nat.lt_succ_of_lt (r.bound p' d hp).2⟩
  · intro a it ha
    obtain ⟨p, d, hp, hd, ho⟩ := r.owned a it ha
    refine ⟨p, d, ?_, hd, ho⟩
    have h0 : p ≠ t.fresh := fun h => by rw [h, hold] at hp; cases hp
    simp only [Function.update_of_ne h0, hp]

theorem rel_next {h : Heap} {t : Table} (r : Rel h t) {p : ℕ} {e : Entry} (he : t.at_ p = some e) {g : Freq} (hl : isList g = isList e.val)
    (hi : itemsOf g = itemsOf e.val) :
    Rel { h with cells := Function.update h.cells p (some ⟨bare g, if isList e.val then some e.origin else none⟩) }
      { t with at_ := Function.update t.at_ p (some ⟨g, e.origin⟩) } := by
  constructor
  · exact r.fresh
  · intro q hq
    by_cases h0 : q = p
    · subst h0; simp at hq
    · simp only [Function.update_of_ne h0] at hq
      simp only [Function.update_of_ne h0, r.dead q hq]
  · intro q d hq
    by_cases h0 : q = p
    · subst h0; simp only [Function.update_self, Option.some.injEq] at hq; subst hq
      simp [hl]
    · simp only [Function.update_of_ne h0] at hq
      simp only [Function.update_of_ne h0, r.live q d hq]
  · intro q d hq hd
    by_cases h0 : q = p
    · subst h0; simp only [Function.update_self, Option.some.injEq] at hq; subst hq
      have := r.items q e he (by rw [← hl]; exact hd)
      exact ⟨by rw [hi]; exact this.1, by rw [hi]; exact this.2⟩
    · simp only [Function.update_of_ne h0] at hq
      exact r.items q d hq hd
  · intro q d hq
    by_cases h0 : q = p
    · subst h0; simp only [Function.update_self, Option.some.injEq] at hq; subst hq
      exact r.bound q e he
    · simp only [Function.update_of_ne h0] at hq
      exact r.bound q d hq
  · intro a it ha
    obtain ⟨q, d, hq, hd, ho⟩ := r.owned a it ha
    by_cases h0 : q = p
    · subst h0
      rw [he] at hq; cases hq
      exact ⟨q, ⟨g, e.origin⟩, by simp, by rw [← hd]; exact hl, ho⟩
    · exact ⟨q, d, by simp only [Function.update_of_ne h0, hq], hd, ho⟩

theorem rel_dispose {h : Heap} {t : Table} (r : Rel h t) {p : ℕ} {e : Entry} (he : t.at_ p = some e) (hc : t.Careful (.dispose (some p))) :
    Rel { h with cells := Function.update h.cells p none, lists := if isList e.val then Function.update h.lists e.origin none else h.lists }
      { t with at_ := Function.update t.at_ p none } := by
  constructor
  · exact r.fresh
  · intro q hq
    by_cases h0 : q = p
    · subst h0; simp
    · simp only [Function.update_of_ne h0] at hq
      simp only [Function.update_of_ne h0, r.dead q hq]
  · intro q d hq
    by_cases h0 : q = p
    · subst h0; simp at hq
    · simp only [Function.update_of_ne h0] at hq
      simp only [Function.update_of_ne h0, r.live q d hq]
  · intro q d hq hd
    by_cases h0 : q = p
    · subst h0; simp at hq
    · simp only [Function.update_of_ne h0] at hq
      refine ⟨(r.items q d hq hd).1, ?_⟩
      cases hl : isList e.val with
      | false => simpa using (r.items q d hq hd).2
      | true =>
        have : d.origin ≠ e.origin := hc e he hl q d h0 hq
        simp only [if_true, Function.update_of_ne this]
        exact (r.items q d hq hd).2
  · intro q d hq
    by_cases h0 : q = p
    · subst h0; simp at hq
    · simp only [Function.update_of_ne h0] at hq
      exact r.bound q d hq
  · intro a it ha
    have ho : ∃ q d, t.at_ q = some d ∧ isList d.val = true ∧ d.origin = a ∧ (isList e.val = true → a ≠ e.origin) := by
      cases hl : isList e.val with
      | false =>
        simp only [hl] at ha
        obtain ⟨q, d, hq, hd, ho⟩ := r.owned a it ha
        exact ⟨q, d, hq, hd, ho, fun h => by cases h⟩
      | true =>
        simp only [hl, if_true] at ha
        have ha0 : a ≠ e.origin := fun h => by rw [h] at ha; simp at ha
        rw [Function.update_of_ne ha0] at ha
        obtain ⟨q, d, hq, hd, ho⟩ := r.owned a it ha
        exact ⟨q, d, hq, hd, ho, fun _ => ha0⟩
    obtain ⟨q, d, hq, hd, ho, hne⟩ := ho
    have h0 : q ≠ p := by
      rintro rfl
      rw [he] at hq; cases hq
      exact hne hd ho.symm
    exact ⟨q, d, by simp only [Function.update_of_ne h0, hq], hd, ho⟩

theorem classStrD_total (f : Freq) : classStrD f ≠ .ub ∧ classStrD f ≠ .diverges := by
  have wb : ∀ g : WB, g.classStr ≠ .ub ∧ g.classStr ≠ .diverges := by
    intro g
    unfold WB.classStr
    split <;> exact ⟨fun h => (by cases h), fun h => (by cases h)⟩
  cases f with
  | cs p => exact ⟨fun h => (by cases h), fun h => (by cases h)⟩
  | year f =>
    show f.classStr ≠ _ ∧ f.classStr ≠ _
    unfold YB.classStr
    split <;> exact ⟨fun h => (by cases h), fun h => (by cases h)⟩
  | week f => exact wb f
  | day f =>
    show f.classStr ≠ _ ∧ f.classStr ≠ _
    have := wb f.day
    unfold DB.classStr
    cases hc : f.day.classStr with
    | ub => exact absurd hc this.1
    | diverges => exact absurd hc this.2
    | _ => split <;> exact ⟨fun h => (by cases h), fun h => (by cases h)⟩
  | listS f =>
    show FL.classStrDetails _ _ f ≠ _ ∧ FL.classStrDetails _ _ f ≠ _
    unfold FL.classStrDetails
    split <;> exact ⟨fun h => (by cases h), fun h => (by cases h)⟩
  | listD f =>
    show FL.classStrDetails _ _ f ≠ _ ∧ FL.classStrDetails _ _ f ≠ _
    unfold FL.classStrDetails
    split <;> exact ⟨fun h => (by cases h), fun h => (by cases h)⟩

theorem minus_check (f g : Freq) : f.minus g = (checkClassEquality f g >>= fun _ => f.minus g) := by
  unfold Freq.minus
  cases checkClassEquality f g <;> rfl

/-- One call. -/
theorem step_sim {h : Heap} {t t' : Table} (r : Rel h t) {c : Call} {a : Answer × Bool} (hc : t.Careful c) (hs : t.step c = .ok (t', a)) :
    ∃ h', h.step c = .ok (h', a) ∧ Rel h' t' := by
  cases c with
  | create s c =>
    obtain ⟨⟨k, f⟩, hb, hs⟩ := bind_ok hs
    cases f with
    | none => cases hs; exact ⟨h, by show (createBody s c >>= _) = _; rw [hb]; rfl, r⟩
    | some f =>
      cases hs
      obtain ⟨e, r'⟩ := rel_alloc r (f := f) (create_items hb)
      refine ⟨_, ?_, r'⟩
      show (createBody s c >>= _) = _
      rw [hb]
      simp only [Outcome.ok_bind, Outcome.pure_eq, e]
  | copy p =>
    obtain ⟨e, he, hs⟩ := bind_ok hs
    cases hs
    obtain ⟨-, h2, h3⟩ := fetch_of r he
    refine ⟨_, ?_, rel_copy r h2⟩
    show (h.fetch p >>= _) = _
    rw [h3]
    simp only [Outcome.ok_bind, Outcome.pure_eq, r.fresh]
  | next p n =>
    obtain ⟨e, he, hs⟩ := bind_ok hs
    obtain ⟨-, h2, h3⟩ := fetch_of r he
    obtain ⟨g, hg, hs⟩ := bind_ok hs
    have hstep : h.step (.next p n) = (attempt (e.2.val.next n) >>= fun x => match x with
        | none => pure (h, .done, true)
        | some g => pure ({ h with cells := Function.update h.cells e.1 (some ⟨bare g, if isList e.2.val then some e.2.origin else none⟩) }, .done, false)) := by
      show (h.fetch p >>= _) = _
      rw [h3]
      show (h.load _ >>= _) = _
      rw [load_of r h2]
      rfl
    rw [hstep, hg]
    obtain ⟨g', hg', e'⟩ | ⟨-, e'⟩ := attempt_ok hg
    · subst e'; cases hs
      obtain ⟨k1, k2⟩ := next_keeps hg'
      exact ⟨_, rfl, rel_next r h2 k1 k2⟩
    · subst e'; cases hs; exact ⟨_, rfl, r⟩
  | toString p b1 b2 len =>
    obtain ⟨e, he, hs⟩ := bind_ok hs
    obtain ⟨-, h2, h3⟩ := fetch_of r he
    obtain ⟨x, hx, hs⟩ := bind_ok hs
    obtain ⟨y, hy, hs⟩ := bind_ok hs
    have hstep : h.step (.toString p b1 b2 len) = (attempt e.2.val.toStr >>= fun x => match x with
        | none => pure (h, .text len none [b1, b2], true)
        | some s => (attempt (classStrD e.2.val) >>= fun y => match y with
          | none => pure (h, .text len none [b1, b2], true)
          | some k => (putTexts e.2.val.cls s k b1 b2 len >>= fun a => pure (h, a, false)))) := by
      show (h.fetch p >>= _) = _
      rw [h3]
      show (attempt (bare e.2.val).toStr >>= _) = _
      rw [toStr_bare]
      cases attempt e.2.val.toStr with
      | ok x =>
        cases x with
        | none => rfl
        | some s =>
          show (h.load _ >>= _) = _
          rw [load_of r h2]
          show (attempt (classStrD e.2.val) >>= _) = _
          dsimp only
          rw [cls_bare]; rfl
      | _ => rfl
    rw [hstep, hx]
    cases x with
    | none => cases hs; exact ⟨_, rfl, r⟩
    | some s =>
      rw [Outcome.ok_bind]
      dsimp only
      rw [hy, Outcome.ok_bind]
      cases y with
      | none => cases hs; exact ⟨_, rfl, r⟩
      | some k =>
        obtain ⟨z, hz, hs⟩ := bind_ok hs
        cases hs
        refine ⟨h, ?_, r⟩
        dsimp only
        rw [hz]; rfl
  | toString0 p b len =>
    obtain ⟨e, he, hs⟩ := bind_ok hs
    obtain ⟨-, h2, h3⟩ := fetch_of r he
    obtain ⟨x, hx, hs⟩ := bind_ok hs
    have hstep : h.step (.toString0 p b len) = (attempt e.2.val.toStr >>= fun x => match x with
        | none => pure (h, .text len none [b], true)
        | some s => (putText s b len >>= fun a => pure (h, a, false))) := by
      show (h.fetch p >>= _) = _
      rw [h3]
      show (attempt (bare e.2.val).toStr >>= _) = _
      rw [toStr_bare]
      rfl
    rw [hstep, hx]
    cases x with
    | none => cases hs; exact ⟨_, rfl, r⟩
    | some s =>
      obtain ⟨z, hz, hs⟩ := bind_ok hs
      cases hs
      refine ⟨h, ?_, r⟩
      rw [Outcome.ok_bind]
      dsimp only
      rw [hz]; rfl
  | minus p q =>
    obtain ⟨e, he, hs⟩ := bind_ok hs
    obtain ⟨d, hd, hs⟩ := bind_ok hs
    obtain ⟨-, h2, h3⟩ := fetch_of r he
    obtain ⟨-, h2', h3'⟩ := fetch_of r hd
    obtain ⟨x, hx, hs⟩ := bind_ok hs
    have hstep : h.step (.minus p q) = (attempt (checkClassEquality e.2.val d.2.val) >>= fun x => match x with
        | none => pure (h, .num (-1), true)
        | some _ => (attempt (e.2.val.minus d.2.val) >>= fun y => match y with
          | none => pure (h, .num (-1), true)
          | some n => pure (h, .num n, false))) := by
      show (h.fetch p >>= _) = _
      rw [h3]
      show (h.fetch q >>= _) = _
      rw [h3']
      show (attempt (checkClassEquality (bare e.2.val) (bare d.2.val)) >>= _) = _
      rw [check_bare]
      cases attempt (checkClassEquality e.2.val d.2.val) with
      | ok x =>
        cases x with
        | none => rfl
        | some u =>
          show (h.load _ >>= _) = _
          rw [load_of r h2]
          show (h.load _ >>= _) = _
          rw [load_of r h2']
          rfl
      | _ => rfl
    rw [hstep]
    cases hk : checkClassEquality e.2.val d.2.val with
    | ok u =>
      show ∃ h', (attempt (e.2.val.minus d.2.val) >>= _) = _ ∧ _
      rw [hx]
      cases x with
      | none => cases hs; exact ⟨h, rfl, r⟩
      | some n => cases hs; exact ⟨h, rfl, r⟩
    | throws =>
      rw [minus_check, hk] at hx
      cases hx; cases hs; exact ⟨h, rfl, r⟩
    | ub => rw [minus_check, hk] at hx; cases hx
    | diverges => rw [minus_check, hk] at hx; cases hx
  | dispose p =>
    cases p with
    | none => cases hs; exact ⟨h, rfl, r⟩
    | some p =>
      obtain ⟨e, he, hs⟩ := bind_ok hs
      cases hs
      obtain ⟨h1, h2, h3⟩ := fetch_of r he
      cases h1
      have r' := rel_dispose r h2 hc
      refine ⟨_, ?_, r'⟩
      show (h.fetch (some e.1) >>= _) = _
      rw [h3]
      rcases e with ⟨p, e⟩
      have hb := isList_bare e.val
      cases hl : isList e.val with
      | false =>
        rw [hl] at hb
        simp only [Outcome.ok_bind, hb]
        rfl
      | true =>
        rw [hl] at hb
        obtain ⟨i1, i2⟩ := r.items p e h2 hl
        cases hi : itemsOf e.val with
        | none => exact absurd hi i1
        | some it =>
          rw [hi] at i2
          simp only [Outcome.ok_bind, hb, if_true, i2]
          rfl

theorem run_sim : ∀ (cs : List Call) {h : Heap} {t t' : Table} (_ : Rel h t) {as : List (Answer × Bool)}, t.CarefulRun cs → t.run cs = .ok (t', as) →
    ∃ h', h.run cs = .ok (h', as) ∧ Rel h' t'
  | [], h, t, t', r, as, _, hr => by cases hr; exact ⟨h, rfl, r⟩
  | c :: cs, h, t, t', r, as, hc, hr => by
    obtain ⟨⟨t1, a⟩, h1, hr⟩ := bind_ok hr
    obtain ⟨⟨t2, b⟩, h2, hr⟩ := bind_ok hr
    cases hr
    obtain ⟨g1, k1, r1⟩ := step_sim r hc.1 h1
    obtain ⟨g2, k2, r2⟩ := run_sim cs r1 (hc.2 _ h1) h2
    refine ⟨g2, ?_, r2⟩
    show (h.step c >>= _) = _
    rw [k1]
    show (g1.run cs >>= _) = _
    rw [k2]
    rfl

end Fh
end LDT
