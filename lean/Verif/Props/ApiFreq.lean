import Verif.Lemmas.ApiFreq
import Verif.Props.Text
import Verif.Lemmas.FreqMinus
/-!
# C140: handles of frequencies
-/
namespace LDT
namespace Fh
open Fq Text Cal

/-- C140: as long as no list is disposed of while copies of it are alive, the memory is not visible: every history of calls has the answers of the same calls on values, in
which a call changes the frequency of its own handle only; exactly the handles that are not disposed of are objects in memory.

Partial: the condition on lists (see `C140_shared_violated`). -/
theorem C140_handles_partial {cs : List Call} {t : Table} {as : List (Answer × Bool)} (hc : Table.empty.CarefulRun cs) (hr : Table.empty.run cs = .ok (t, as)) :
    ∃ h, Heap.empty.run cs = .ok (h, as) ∧ (∀ p, h.cells p = none ↔ t.at_ p = none) ∧
      ∀ p e, t.at_ p = some e → ∃ c, h.fetch (some p) = .ok (p, c) ∧ h.load c = .ok e.val := by
  obtain ⟨h, hh, r⟩ := run_sim cs rel_empty hc hr
  refine ⟨h, hh, fun p => ⟨fun hp => ?_, r.dead p⟩, fun p e he => ?_⟩
  · cases ht : t.at_ p with
    | none => rfl
    | some e => rw [r.live p e ht] at hp; cases hp
  · refine ⟨_, ?_, load_of r he⟩
    have : t.get (some p) = .ok (p, e) := by unfold Table.get; dsimp only; rw [he]
    exact (fetch_of r this).2.2

/-- C140: nothing leaks: when every handle is disposed of, neither objects nor items are left. -/
theorem C140_no_leak {cs : List Call} {t : Table} {as : List (Answer × Bool)} (hc : Table.empty.CarefulRun cs) (hr : Table.empty.run cs = .ok (t, as))
    (hd : ∀ p, t.at_ p = none) : ∃ h, Heap.empty.run cs = .ok (h, as) ∧ (∀ p, h.cells p = none) ∧ ∀ a, h.lists a = none := by
  obtain ⟨h, hh, r⟩ := run_sim cs rel_empty hc hr
  refine ⟨h, hh, fun p => r.dead p (hd p), fun a => ?_⟩
  cases ha : h.lists a with
  | none => rfl
  | some it =>
    obtain ⟨p, e, hp, -⟩ := r.owned a it ha
    rw [hd p] at hp; cases hp

/-- C140: without lists every history is careful. -/
theorem C140_careful : ∀ (cs : List Call) (t : Table), (∀ p e, t.at_ p = some e → isList e.val = false) →
    (∀ s c k f, Call.create s c ∈ cs → createBody s c = .ok (k, some f) → isList f = false) → t.CarefulRun cs
  | [], _, _, _ => trivial
  | c :: cs, t, ht, hcs => by
    refine ⟨?_, fun r hr => C140_careful cs r.1 ?_ (fun s x k f hm => hcs s x k f (List.mem_cons_of_mem _ hm))⟩
    · unfold Table.Careful
      split
      · intro e he hl; rw [ht _ e he] at hl; cases hl
      · trivial
    · have upd : ∀ (q : ℕ) (d : Entry), isList d.val = false → ∀ p e, Function.update t.at_ q (some d) p = some e → isList e.val = false := by
        intro q d hd p e he
        by_cases h0 : p = q
        · subst h0; simp only [Function.update_self, Option.some.injEq] at he; subst he; exact hd
        · rw [Function.update_of_ne h0] at he; exact ht p e he
      have get : ∀ {p : Option ℕ} {e : ℕ × Entry}, t.get p = .ok e → t.at_ e.1 = some e.2 := by
        intro p e he
        cases p with
        | none => cases he
        | some p =>
          unfold Table.get at he
          dsimp only at he
          cases hp : t.at_ p with
          | none => rw [hp] at he; cases he
          | some d => rw [hp] at he; cases he; exact hp
      cases c with
      | create s x =>
        obtain ⟨⟨k, f⟩, hb, hr⟩ := bind_ok hr
        cases f with
        | none => cases hr; exact ht
        | some f => cases hr; exact upd _ _ (hcs s x k f (List.mem_cons_self ..) hb)
      | copy p =>
        obtain ⟨e, he, hr⟩ := bind_ok hr
        cases hr; exact upd _ _ (ht _ _ (get he))
      | next p n =>
        obtain ⟨e, he, hr⟩ := bind_ok hr
        obtain ⟨g, hg, hr⟩ := bind_ok hr
        obtain ⟨g', hg', e'⟩ | ⟨-, e'⟩ := attempt_ok hg
        · subst e'; cases hr; exact upd _ _ (by rw [(next_keeps hg').1]; exact ht _ _ (get he))
        · subst e'; cases hr; exact ht
      | toString p b1 b2 len =>
        obtain ⟨e, he, hr⟩ := bind_ok hr
        obtain ⟨x, hx, hr⟩ := bind_ok hr
        obtain ⟨y, hy, hr⟩ := bind_ok hr
        cases x with
        | none => cases hr; exact ht
        | some x =>
          cases y with
          | none => cases hr; exact ht
          | some y => obtain ⟨z, hz, hr⟩ := bind_ok hr; cases hr; exact ht
      | toString0 p b len =>
        obtain ⟨e, he, hr⟩ := bind_ok hr
        obtain ⟨x, hx, hr⟩ := bind_ok hr
        cases x with
        | none => cases hr; exact ht
        | some x => obtain ⟨z, hz, hr⟩ := bind_ok hr; cases hr; exact ht
      | minus p q =>
        obtain ⟨e, he, hr⟩ := bind_ok hr
        obtain ⟨d, hd, hr⟩ := bind_ok hr
        obtain ⟨x, hx, hr⟩ := bind_ok hr
        cases x with
        | none => cases hr; exact ht
        | some x => cases hr; exact ht
      | dispose p =>
        cases p with
        | none => cases hr; exact ht
        | some p =>
          obtain ⟨e, he, hr⟩ := bind_ok hr
          cases hr
          intro q d hq
          by_cases h0 : q = p
          · subst h0; simp at hq
          · simp only [Function.update_of_ne h0] at hq; exact ht q d hq

/-- C140 does not hold of the program for copies of lists: they share their items with the original. After any history, copying a list and disposing of one of the two
leaves the other one unusable: advancing it, printing it with its items, and disposing of it are undefined behaviour. -/
theorem C140_shared_violated {cs : List Call} {t : Table} {as : List (Answer × Bool)} (hc : Table.empty.CarefulRun cs) (hr : Table.empty.run cs = .ok (t, as))
    {p : ℕ} {e : Entry} (he : t.at_ p = some e) (hl : isList e.val = true) (n : Int) (b1 b2 : Str) (len : Int) (hs : ∃ s, e.val.toStr = .ok s) :
    ∃ h q h1 h2, Heap.empty.run cs = .ok (h, as) ∧ h.step (.copy (some p)) = .ok (h1, .handle (some q) none, false) ∧
      h1.step (.dispose (some p)) = .ok (h2, .done, false) ∧ h2.step (.dispose (some q)) = .ub ∧ h2.step (.next (some q) n) = .ub ∧
      h2.step (.toString (some q) b1 b2 len) = .ub := by
  obtain ⟨h, hh, r⟩ := run_sim cs rel_empty hc hr
  have g : t.get (some p) = .ok (p, e) := by unfold Table.get; dsimp only; rw [he]
  obtain ⟨h1, k1, r1⟩ := step_sim r (c := .copy (some p)) trivial (by show (t.get (some p) >>= _) = _; rw [g]; rfl)
  have hne : p ≠ t.fresh := Nat.ne_of_lt (r.bound p e he).1
  have hp : h1.cells p = some ⟨bare e.val, some e.origin⟩ := by
    have := r1.live p e (by simp [Function.update_of_ne hne, he])
    rw [this, hl]; rfl
  have hq : h1.cells t.fresh = some ⟨bare e.val, some e.origin⟩ := by
    have := r1.live t.fresh e (by simp)
    rw [this, hl]; rfl
  obtain ⟨i1, i2⟩ := r1.items t.fresh e (by simp) hl
  have hb : isList (bare e.val) = true := by rw [isList_bare]; exact hl
  refine ⟨h, t.fresh, h1, { h1 with cells := Function.update h1.cells p none, lists := Function.update h1.lists e.origin none }, hh, k1, ?_, ?_, ?_, ?_⟩
  · show (h1.fetch (some p) >>= _) = _
    have : h1.fetch (some p) = .ok (p, ⟨bare e.val, some e.origin⟩) := by unfold Heap.fetch; dsimp only; rw [hp]
    rw [this]
    cases hi : itemsOf e.val with
    | none => exact absurd hi i1
    | some it =>
      rw [hi] at i2
      simp only [Outcome.ok_bind, hb, i2]
      rfl
  all_goals
    have hf : ∀ l : ℕ → Option Items, Heap.fetch { h1 with cells := Function.update h1.cells p none, lists := l } (some t.fresh) =
        .ok (t.fresh, ⟨bare e.val, some e.origin⟩) := by
      intro l
      unfold Heap.fetch
      dsimp only
      rw [Function.update_of_ne hne.symm, hq]
    have hload : Heap.load { h1 with cells := Function.update h1.cells p none, lists := Function.update h1.lists e.origin none } ⟨bare e.val, some e.origin⟩ = .ub := by
      unfold Heap.load
      rcases e with ⟨f, o⟩
      cases f with
      | listS f => simp [bare]
      | listD f => simp [bare]
      | _ => cases hl
  · show (Heap.fetch _ (some t.fresh) >>= _) = _
    rw [hf]
    simp only [Outcome.ok_bind, hb, Function.update_self]
  · show (Heap.fetch _ (some t.fresh) >>= _) = _
    rw [hf]
    show (Heap.load _ _ >>= _) = _
    rw [hload]; rfl
  · show (Heap.fetch _ (some t.fresh) >>= _) = _
    rw [hf]
    obtain ⟨s, hs⟩ := hs
    show (attempt (bare e.val).toStr >>= _) = _
    rw [toStr_bare, hs]
    show (Heap.load _ _ >>= _) = _
    rw [hload]; rfl

theorem strcpy_ok {buf s : Str} (h : s.length + 1 ≤ buf.length) : strcpy buf s = .ok (s ++ Char.ofNat 0 :: buf.drop (s.length + 1)) := if_pos h

/-- C140: printing a handle. With less room than the longer text and its terminator nothing is written but the room that is needed; with buffers of the length that is
passed, both texts are written with their terminators, nothing behind them changes, and the class is reported. -/
theorem C140_texts (t : Table) {p : ℕ} {e : Entry} (he : t.at_ p = some e) {s c : Str} (hs : e.val.toStr = .ok s) (hk : classStrD e.val = .ok c) (b1 b2 : Str) (len : Int) :
    (len < max s.length c.length + 1 → t.step (.toString (some p) b1 b2 len) = .ok (t, .text (max s.length c.length + 1) none [b1, b2], false)) ∧
    (max s.length c.length + 1 ≤ len → len ≤ b1.length → len ≤ b2.length → t.step (.toString (some p) b1 b2 len) =
      .ok (t, .text len (some e.val.cls) [s ++ Char.ofNat 0 :: b1.drop (s.length + 1), c ++ Char.ofNat 0 :: b2.drop (c.length + 1)], false)) ∧
    (len < s.length + 1 → t.step (.toString0 (some p) b1 len) = .ok (t, .text (s.length + 1) none [b1], false)) ∧
    (s.length + 1 ≤ len → len ≤ b1.length → t.step (.toString0 (some p) b1 len) = .ok (t, .text len none [s ++ Char.ofNat 0 :: b1.drop (s.length + 1)], false)) := by
  have g : t.get (some p) = .ok (p, e) := by unfold Table.get; dsimp only; rw [he]
  have st : t.step (.toString (some p) b1 b2 len) = (putTexts e.val.cls s c b1 b2 len >>= fun a => pure (t, a, false)) := by
    show (t.get (some p) >>= _) = _
    rw [g]
    show (attempt e.val.toStr >>= _) = _
    rw [hs]
    show (attempt (classStrD e.val) >>= _) = _
    rw [hk]
    rfl
  have st0 : t.step (.toString0 (some p) b1 len) = (putText s b1 len >>= fun a => pure (t, a, false)) := by
    show (t.get (some p) >>= _) = _
    rw [g]
    show (attempt e.val.toStr >>= _) = _
    rw [hs]
    rfl
  refine ⟨fun h => ?_, fun h h1 h2 => ?_, fun h => ?_, fun h h1 => ?_⟩
  · rw [st]; unfold putTexts required; rw [if_pos h]; rfl
  · rw [st]; unfold putTexts required
    rw [if_neg (by omega), strcpy_ok (by omega), strcpy_ok (by omega)]; rfl
  · rw [st0]; unfold putText; rw [if_pos h]; rfl
  · rw [st0]; unfold putText
    rw [if_neg (by omega), strcpy_ok (by omega)]; rfl

/-- C140: the room reported for too small buffers is enough for the second call. -/
theorem C140_second_call (t : Table) {p : ℕ} {e : Entry} (he : t.at_ p = some e) {s c : Str} (hs : e.val.toStr = .ok s) (hk : classStrD e.val = .ok c) (b1 b2 : Str)
    (len n : Int) {bs : List Str} (h : t.step (.toString (some p) b1 b2 len) = .ok (t, .text n none bs, false)) (d1 d2 : Str) (h1 : d1.length = n) (h2 : d2.length = n) :
    ∃ r1 r2, t.step (.toString (some p) d1 d2 n) = .ok (t, .text n (some e.val.cls) [s ++ Char.ofNat 0 :: r1, c ++ Char.ofNat 0 :: r2], false) := by
  have g : t.get (some p) = .ok (p, e) := by unfold Table.get; dsimp only; rw [he]
  have st : t.step (.toString (some p) b1 b2 len) = (putTexts e.val.cls s c b1 b2 len >>= fun a => pure (t, a, false)) := by
    show (t.get (some p) >>= _) = _
    rw [g]
    show (attempt e.val.toStr >>= _) = _
    rw [hs]
    show (attempt (classStrD e.val) >>= _) = _
    rw [hk]
    rfl
  have hn : n = max s.length c.length + 1 := by
    rw [st] at h
    unfold putTexts required at h
    split_ifs at h with hlt
    · cases h; rfl
    · obtain ⟨a, ha, h⟩ := bind_ok h
      obtain ⟨x, -, ha⟩ := bind_ok ha
      obtain ⟨y, -, ha⟩ := bind_ok ha
      cases ha; cases h
  exact ⟨_, _, (C140_texts t he hs hk d1 d2 n).2.1 (by omega) (by omega) (by omega)⟩

theorem create_of {s c : Str} {f : Freq} {k : FClass} (hp : parse s c = .ok f) (hk : getClass c = .ok k) (hl : isList f = false) : createBody s c = .ok (some k, some f) := by
  unfold createBody
  rw [hp]
  show (getClass c >>= _) = _
  rw [hk]
  show (attempt (fill f s c) >>= _) = _
  have : fill f s c = .ok f := by cases f <;> first | rfl | cases hl
  rw [this]; rfl

/-- C140: the printed texts of a frequency create it again, with the fields that its class does not use reset (`Freq.norm`, C05). -/
theorem C140_round_trip (f : Freq) (hw : f.WF) (hl : f.NotList) (hf : f.Fits) :
    ∃ s c, f.toStr = .ok s ∧ classStrD f = .ok c ∧ createBody s c = .ok (some f.cls, some f.norm) := by
  obtain ⟨s, c, h1, h2, h3, h4⟩ := C05_text_round_trip f hw hl hf
  refine ⟨s, c, h1, ?_, create_of h4 h3 ?_⟩
  · cases f <;> first | exact h2 | exact absurd hl id
  · cases f <;> first | rfl | exact absurd hl id

theorem class_Ls (x : Str) : getClass ("Ls".toList ++ ":".toList ++ x) = .ok .listString := by
  unfold getClass
  rfl

theorem class_Ld (x : Str) : getClass ("Ld".toList ++ ":".toList ++ x) = .ok .listDate := by
  unfold getClass
  rfl

/-- C140: the printed texts of a list of dates create the same place of the same list, now with its items (`Frequency::Parse` alone drops them, `C05_violated_list_general`). -/
theorem C140_date_list (f : FL Int) (l : List Int) (hl : f.items = some l) (hne : l ≠ []) (hf : (Freq.listD f).Fits) :
    ∃ s c g, (Freq.listD f).toStr = .ok s ∧ classStrD (.listD f) = .ok c ∧ createBody s c = .ok (some .listDate, some (.listD g)) ∧ FL.Same f g := by
  obtain ⟨c, g, h1, h2, h3⟩ := C05_date_list_round_trip f l hl hne hf
  refine ⟨_, c, g, rfl, h1, ?_, h3⟩
  have hk : getClass c = .ok .listDate := by
    unfold FL.classStrDetails at h1
    rw [hl] at h1
    cases h1
    exact class_Ld _
  have h2' := h2
  unfold FL.parseListD at h2'
  obtain ⟨o, ho, h2'⟩ := bind_ok h2'
  obtain ⟨v, hv, -⟩ := bind_ok h2'
  have hp : ∃ x, FL.parseListD (FL.toStr toIso f) "Ld".toList = .ok x := by
    unfold FL.parseListD
    rw [ho]
    show ∃ x, ((if o = 0 then fromIso (FL.toStr toIso f) else .ok 0) >>= _) = _
    rw [hv]
    exact ⟨_, rfl⟩
  obtain ⟨x, hx⟩ := hp
  unfold createBody parse
  rw [hk]
  simp only [Outcome.ok_bind, hx, Outcome.pure_eq, attempt, fill, h2]

/-- C140: the same for lists of texts.

Partial: no item contains the separator (`C05_violated_list_separator`), and the value is not an `out_item:` text. -/
theorem C140_text_list_partial (f : FL Str) (l : List Str) (hl : f.items = some l) (hne : l ≠ []) (hs : ∀ x ∈ l, ';' ∉ x)
    (hv : f.outIndex = 0 → startsWith "out_item:".toList f.value = false) (hi : Int32 f.outIndex) :
    ∃ s c g, (Freq.listS f).toStr = .ok s ∧ classStrD (.listS f) = .ok c ∧ createBody s c = .ok (some .listString, some (.listS g)) ∧ FL.Same f g := by
  obtain ⟨c, g, h1, h2, h3⟩ := C05_list_round_trip_partial f l hl hne hs hv hi
  refine ⟨_, c, g, rfl, h1, ?_, h3⟩
  have hk : getClass c = .ok .listString := by
    unfold FL.classStrDetails at h1
    rw [hl] at h1
    cases h1
    exact class_Ls _
  unfold createBody parse
  rw [hk]
  simp only [Outcome.ok_bind, h2, Outcome.pure_eq, attempt, fill]

/-- C140: texts that are refused give a null handle and an error; no handle changes, and for an unknown class `freqClass` is not written. -/
theorem C140_refused (t : Table) (s c : Str) (h : parse s c = .throws) : t.step (.create s c) = .ok (t, .handle none none, true) := by
  show (createBody s c >>= _) = _
  unfold createBody
  rw [h]; rfl

/-- C140: an exception in the difference is reported by `-1` and the error, so that the difference −1 can be told from it; nothing changes. -/
theorem C140_minus (t : Table) {p q : ℕ} {e d : Entry} (he : t.at_ p = some e) (hd : t.at_ q = some d) :
    (∀ n, e.val.minus d.val = .ok n → t.step (.minus (some p) (some q)) = .ok (t, .num n, false)) ∧
    (e.val.minus d.val = .throws → t.step (.minus (some p) (some q)) = .ok (t, .num (-1), true)) := by
  have g1 : t.get (some p) = .ok (p, e) := by unfold Table.get; dsimp only; rw [he]
  have g2 : t.get (some q) = .ok (q, d) := by unfold Table.get; dsimp only; rw [hd]
  have st : t.step (.minus (some p) (some q)) = (attempt (e.val.minus d.val) >>= fun x => match x with
      | none => pure (t, .num (-1), true)
      | some n => pure (t, .num n, false)) := by
    show (t.get (some p) >>= _) = _
    rw [g1]
    show (t.get (some q) >>= _) = _
    rw [g2]
    rfl
  constructor
  · intro n h; rw [st, h]; rfl
  · intro h; rw [st, h]; rfl

/-- A list of texts with copies: only the last one is disposed of while the list is shared by no other handle. -/
def exCalls : List Call :=
  [.create "a".toList "Ls:a;b;c".toList, .create "2000".toList "y".toList, .copy (some 0), .copy (some 1), .next (some 2) 2, .next (some 1) 3, .dispose (some 1),
    .minus (some 2) (some 0), .minus (some 0) (some 3), .toString0 (some 3) [' ', ' ', ' ', ' ', ' ', ' '] 6, .toString (some 2) [] [] 0, .dispose (some 3), .dispose none]

example : (Table.empty.run exCalls).bind (fun r => .ok r.2) = .ok
    [(.handle (some 0) (some .listString), false), (.handle (some 1) (some .yearly), false), (.handle (some 2) none, false), (.handle (some 3) none, false),
      (.done, false), (.done, false), (.done, false), (.num 2, false), (.num (-1), true),
      (.text 6 none ["2000".toList ++ [Char.ofNat 0, ' ']], false), (.text 9 none [[], []], false), (.done, false), (.done, false)] := by decide +kernel

/-- The same answers from the memory. -/
example : (Heap.empty.run exCalls).bind (fun r => .ok r.2) = (Table.empty.run exCalls).bind (fun r => .ok r.2) := by decide +kernel

/-- Disposing of a list and of its copy frees the items twice. -/
example : (Heap.empty.run [.create "a".toList "Ls:a;b".toList, .copy (some 0), .dispose (some 0), .dispose (some 1)]).bind (fun r => .ok r.2) = .ub := by decide +kernel

theorem toStr_total (f : Freq) : f.toStr ≠ .ub ∧ f.toStr ≠ .diverges := by
  cases f with
  | year f =>
    show f.toStr ≠ _ ∧ f.toStr ≠ _
    unfold YB.toStr
    split <;> exact ⟨fun h => (by cases h), fun h => (by cases h)⟩
  | day f =>
    show f.toStr ≠ _ ∧ f.toStr ≠ _
    unfold DB.toStr
    split <;> exact ⟨fun h => (by cases h), fun h => (by cases h)⟩
  | _ => exact ⟨fun h => (by cases h), fun h => (by cases h)⟩

theorem attempt_total {α : Type} {o : Outcome α} (h : o ≠ .ub ∧ o ≠ .diverges) : ∃ r, attempt o = .ok r := by
  cases o with
  | ub => exact absurd rfl h.1
  | diverges => exact absurd rfl h.2
  | _ => exact ⟨_, rfl⟩

theorem check_total (f g : Freq) : checkClassEquality f g ≠ .ub ∧ checkClassEquality f g ≠ .diverges := by
  have str : ∀ f : Freq, f.classStr ≠ .ub ∧ f.classStr ≠ .diverges := by
    intro f
    cases f with
    | listS f => exact ⟨fun h => (by cases h), fun h => (by cases h)⟩
    | listD f => exact ⟨fun h => (by cases h), fun h => (by cases h)⟩
    | cs p => exact classStrD_total (.cs p)
    | year f => exact classStrD_total (.year f)
    | week f => exact classStrD_total (.week f)
    | day f => exact classStrD_total (.day f)
  unfold checkClassEquality
  split
  · exact ⟨fun h => (by cases h), fun h => (by cases h)⟩
  · have h1 := str f
    have h2 := str g
    cases hf : f.classStr with
    | ub => exact absurd hf h1.1
    | diverges => exact absurd hf h1.2
    | throws => exact ⟨fun h => (by cases h), fun h => (by cases h)⟩
    | ok a =>
      cases hg : g.classStr with
      | ub => exact absurd hg h2.1
      | diverges => exact absurd hg h2.2
      | throws => exact ⟨fun h => (by cases h), fun h => (by cases h)⟩
      | ok b =>
        simp only [Outcome.ok_bind]
        split <;> exact ⟨fun h => (by cases h), fun h => (by cases h)⟩

theorem wb_minus_total (f g : WB) (hf : f.WF) : WB.minusRaw f g ≠ .ub ∧ WB.minusRaw f g ≠ .diverges := by
  have hm : f.cls = .multiWeekly ∨ f.cls = .multiDaily → f.multi ≠ 0 := by
    rintro (h | h) h0 <;> rcases hf with h' | h' | h' | h' | h' <;> simp_all
  unfold WB.minusRaw
  split
  · exact ⟨fun h => (by cases h), fun h => (by cases h)⟩
  · rename_i hc
    have := hm (.inl hc)
    rw [if_neg (by omega)]
    exact ⟨fun h => (by cases h), fun h => (by cases h)⟩
  · exact ⟨fun h => (by cases h), fun h => (by cases h)⟩
  · exact ⟨fun h => (by cases h), fun h => (by cases h)⟩
  · rename_i hc
    have := hm (.inr hc)
    split
    · exact ⟨fun h => (by cases h), fun h => (by cases h)⟩
    · exact ⟨fun h => (by cases h), fun h => (by cases h)⟩
  · exact ⟨fun h => (by cases h), fun h => (by cases h)⟩

theorem minus_total (f g : Freq) (hf : f.WF) (hg : g.WF) : f.minus g ≠ .ub ∧ f.minus g ≠ .diverges := by
  have hk := check_total f g
  rw [minus_check]
  cases hc : checkClassEquality f g with
  | ub => exact absurd hc hk.1
  | diverges => exact absurd hc hk.2
  | throws => exact ⟨fun h => (by cases h), fun h => (by cases h)⟩
  | ok u =>
    simp only [Outcome.ok_bind]
    unfold Freq.minus
    rw [hc]
    simp only [Outcome.ok_bind]
    cases f <;> cases g <;> first | exact ⟨fun h => (by cases h), fun h => (by cases h)⟩ | skip
    · rename_i f g
      have : f.yearMulti ≠ 0 := by have := hf.2.1; omega
      show YB.minusRaw f g ≠ _ ∧ YB.minusRaw f g ≠ _
      unfold YB.minusRaw
      rw [if_neg this]
      split <;> exact ⟨fun h => (by cases h), fun h => (by cases h)⟩
    · rename_i f g; exact wb_minus_total f g hf
    · rename_i f g
      show DB.minusRaw f g ≠ _ ∧ DB.minusRaw f g ≠ _
      unfold DB.minusRaw
      have h1 : DB.compareRaw f g ≠ .ub ∧ DB.compareRaw f g ≠ .diverges := by
        unfold DB.compareRaw
        have := check_total (.week f.day) (.week g.day)
        cases h : checkClassEquality (.week f.day) (.week g.day) with
        | ub => exact absurd h this.1
        | diverges => exact absurd h this.2
        | throws => exact ⟨fun h => (by cases h), fun h => (by cases h)⟩
        | ok u =>
          simp only [Outcome.ok_bind]
          split_ifs <;> exact ⟨fun h => (by cases h), fun h => (by cases h)⟩
      cases h : DB.compareRaw f g with
      | ub => exact absurd h h1.1
      | diverges => exact absurd h h1.2
      | throws => exact ⟨fun h => (by cases h), fun h => (by cases h)⟩
      | ok c =>
        simp only [Outcome.ok_bind]
        have m1 := wb_minus_total f.day g.day hf.2.1
        have m2 := wb_minus_total g.day f.day hg.2.1
        split
        · cases h : WB.minusRaw f.day g.day with
          | ub => exact absurd h m1.1
          | diverges => exact absurd h m1.2
          | _ => exact ⟨fun h => (by cases h), fun h => (by cases h)⟩
        · cases h : WB.minusRaw g.day f.day with
          | ub => exact absurd h m2.1
          | diverges => exact absurd h m2.2
          | _ => exact ⟨fun h => (by cases h), fun h => (by cases h)⟩
    · rename_i f g
      obtain ⟨l, hl, -⟩ := hf
      obtain ⟨l', hl', -⟩ := hg
      show FL.minusRaw f g ≠ _ ∧ FL.minusRaw f g ≠ _
      unfold FL.minusRaw
      rw [hl, hl']
      exact ⟨fun h => (by cases h), fun h => (by cases h)⟩
    · rename_i f g
      obtain ⟨l, hl, -⟩ := hf
      obtain ⟨l', hl', -⟩ := hg
      show FL.minusRaw f g ≠ _ ∧ FL.minusRaw f g ≠ _
      unfold FL.minusRaw
      rw [hl, hl']
      exact ⟨fun h => (by cases h), fun h => (by cases h)⟩

theorem step_proper {t : Table} (hw : ∀ p e, t.at_ p = some e → e.val.WF) {c : Call} (hc : t.Proper c) :
    ∃ t' a, t.step c = .ok (t', a) ∧ ∀ p e, t'.at_ p = some e → e.val.WF := by
  have get : ∀ {p : Option ℕ}, t.Live p → ∃ e, t.get p = .ok e ∧ t.at_ e.1 = some e.2 := by
    intro p hp
    cases p with
    | none => exact absurd hp id
    | some p =>
      cases ht : t.at_ p with
      | none => exact absurd ht hp
      | some e => exact ⟨(p, e), by unfold Table.get; dsimp only; rw [ht], ht⟩
  have upd : ∀ (q : ℕ) (d : Entry), d.val.WF → ∀ p e, Function.update t.at_ q (some d) p = some e → e.val.WF := by
    intro q d hd p e he
    by_cases h0 : p = q
    · subst h0; simp only [Function.update_self, Option.some.injEq] at he; subst he; exact hd
    · rw [Function.update_of_ne h0] at he; exact hw p e he
  cases c with
  | create s c =>
    obtain ⟨k, f, hb, hf⟩ := hc
    cases f with
    | none => exact ⟨_, _, by show (createBody s c >>= _) = _; rw [hb]; rfl, hw⟩
    | some f => exact ⟨_, _, by show (createBody s c >>= _) = _; rw [hb]; rfl, upd _ _ (hf f rfl)⟩
  | copy p =>
    obtain ⟨e, he, ha⟩ := get hc
    exact ⟨_, _, by show (t.get p >>= _) = _; rw [he]; rfl, upd _ _ (hw _ _ ha)⟩
  | next p n =>
    obtain ⟨e, he, ha⟩ := get hc
    obtain ⟨g, hg, hgw, -⟩ := freq_next e.2.val (hw _ _ ha) n
    refine ⟨{ t with at_ := Function.update t.at_ e.1 (some ⟨g, e.2.origin⟩) }, (.done, false), ?_, upd e.1 ⟨g, e.2.origin⟩ hgw⟩
    · show (t.get p >>= _) = _
      rw [he]
      show (attempt (e.2.val.next n) >>= _) = _
      rw [hg]; rfl
  | toString p b1 b2 len =>
    obtain ⟨hl, h1, h2⟩ := hc
    obtain ⟨e, he, ha⟩ := get hl
    obtain ⟨x, hx⟩ := attempt_total (toStr_total e.2.val)
    obtain ⟨y, hy⟩ := attempt_total (classStrD_total e.2.val)
    have st : t.step (.toString p b1 b2 len) = (match (generalizing := false) x, y with
        | some s, some k => (putTexts e.2.val.cls s k b1 b2 len >>= fun a => pure (t, a, false))
        | _, _ => pure (t, .text len none [b1, b2], true)) := by
      show (t.get p >>= _) = _
      rw [he]
      show (attempt e.2.val.toStr >>= _) = _
      rw [hx]
      show (attempt (classStrD e.2.val) >>= _) = _
      rw [hy]; rfl
    rw [st]
    cases x with
    | none => exact ⟨_, _, rfl, hw⟩
    | some s =>
      cases y with
      | none => exact ⟨_, _, rfl, hw⟩
      | some k =>
        dsimp only
        unfold putTexts required
        split
        · exact ⟨_, _, rfl, hw⟩
        · rw [strcpy_ok (by omega), strcpy_ok (by omega)]
          exact ⟨_, _, rfl, hw⟩
  | toString0 p b len =>
    obtain ⟨hl, h1⟩ := hc
    obtain ⟨e, he, ha⟩ := get hl
    obtain ⟨x, hx⟩ := attempt_total (toStr_total e.2.val)
    have st : t.step (.toString0 p b len) = (match (generalizing := false) x with
        | none => pure (t, .text len none [b], true)
        | some s => (putText s b len >>= fun a => pure (t, a, false))) := by
      show (t.get p >>= _) = _
      rw [he]
      show (attempt e.2.val.toStr >>= _) = _
      rw [hx]; rfl
    rw [st]
    cases x with
    | none => exact ⟨_, _, rfl, hw⟩
    | some s =>
      dsimp only
      unfold putText
      split
      · exact ⟨_, _, rfl, hw⟩
      · rw [strcpy_ok (by omega)]
        exact ⟨_, _, rfl, hw⟩
  | minus p q =>
    obtain ⟨e, he, ha⟩ := get hc.1
    obtain ⟨d, hd, hb⟩ := get hc.2
    obtain ⟨x, hx⟩ := attempt_total (minus_total e.2.val d.2.val (hw _ _ ha) (hw _ _ hb))
    have st : t.step (.minus p q) = (match (generalizing := false) x with
        | none => pure (t, .num (-1), true)
        | some n => pure (t, .num n, false)) := by
      show (t.get p >>= _) = _
      rw [he]
      show (t.get q >>= _) = _
      rw [hd]
      show (attempt (e.2.val.minus d.2.val) >>= _) = _
      rw [hx]; rfl
    rw [st]
    cases x <;> exact ⟨_, _, rfl, hw⟩
  | dispose p =>
    cases p with
    | none => exact ⟨_, _, rfl, hw⟩
    | some p =>
      obtain ⟨e, he, ha⟩ := get (p := some p) hc
      refine ⟨_, _, by show (t.get (some p) >>= _) = _; rw [he]; rfl, fun q d hq => ?_⟩
      by_cases h0 : q = p
      · subst h0; simp at hq
      · simp only [Function.update_of_ne h0] at hq; exact hw q d hq

/-- C140: no call of a history of careful and proper calls is undefined behaviour or throws, whatever the calls are.

Partial: the condition on lists (see `C140_shared_violated`). -/
theorem C140_safe_partial : ∀ {cs : List Call}, Table.empty.ProperRun cs → ∃ h as, Heap.empty.run cs = .ok (h, as) := by
  have key : ∀ (cs : List Call) (h : Heap) (t : Table), Rel h t → (∀ p e, t.at_ p = some e → e.val.WF) → t.ProperRun cs → ∃ h' as, h.run cs = .ok (h', as) := by
    intro cs
    induction cs with
    | nil => intro h t _ _ _; exact ⟨_, _, rfl⟩
    | cons c cs ih =>
      intro h t r hw hp
      obtain ⟨t', a, hs, hw'⟩ := step_proper hw hp.2.1
      obtain ⟨h', hh, r'⟩ := step_sim r hp.1 hs
      obtain ⟨h'', as, hr⟩ := ih h' t' r' hw' (hp.2.2 _ hs)
      refine ⟨h'', a :: as, ?_⟩
      show (h.step c >>= _) = _
      rw [hh]
      show (h'.run cs >>= _) = _
      rw [hr]; rfl
  intro cs hp
  exact key cs _ _ rel_empty (fun p e he => by cases he) hp

/-- A list that is created, advanced, printed and disposed of: a careful and proper history. -/
example : Table.empty.ProperRun [.create "a".toList "Ls:a;b".toList, .next (some 0) 1, .toString0 (some 0) [] 0, .dispose (some 0)] := by
  have live : ∀ {v : Freq} {t : Table}, t.at_ = Function.update (fun _ => none) 0 (some ⟨v, 0⟩) → t.Live (some 0) := by
    intro v t h h'; rw [h] at h'; simp at h'
  refine ⟨trivial, ⟨some .listString, some (.listS ⟨"a".toList, some ["a".toList, "b".toList], 0⟩), rfl, fun g hg => ?_⟩, fun r hr => ?_⟩
  · cases hg; exact ⟨_, rfl, by decide, fun _ => by decide⟩
  obtain rfl : r = (⟨Function.update (fun _ => none) 0 (some ⟨.listS ⟨"a".toList, some ["a".toList, "b".toList], 0⟩, 0⟩), 1⟩, .handle (some 0) (some .listString), false) :=
    (Outcome.ok.inj (hr.symm.trans rfl))
  refine ⟨trivial, live rfl, fun r hr => ?_⟩
  have h1 : r.1.at_ = Function.update (fun _ => none) 0 (some ⟨.listS ⟨"b".toList, some ["a".toList, "b".toList], 0⟩, 0⟩) := by
    obtain rfl := Outcome.ok.inj (hr.symm.trans rfl)
    exact Function.update_idem ..
  refine ⟨trivial, ⟨live h1, Int.le_refl 0⟩, fun r' hr' => ?_⟩
  have h2 : r'.1 = r.1 := by
    obtain ⟨e, -, hr'⟩ := bind_ok hr'
    obtain ⟨x, -, hr'⟩ := bind_ok hr'
    cases x with
    | none => cases hr'; rfl
    | some x => obtain ⟨z, -, hr'⟩ := bind_ok hr'; cases hr'; rfl
  rw [h2]
  refine ⟨?_, live h1, fun _ _ => trivial⟩
  intro e _ _ q d hq hd
  rw [h1, Function.update_of_ne hq] at hd
  cases hd

end Fh
end LDT
