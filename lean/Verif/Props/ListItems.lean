import Verif.Props.ListParse

/-!
# C64, continued — The items of a list, with their lines
-/
namespace Verif
namespace Peg
open Walk (Any)
variable {σ : Type} {G : Nat → Exp} {S : Sem σ} {A : Peg.Code σ} {e : Exp} {st t u x : Text} {v vs : List Any}

theorem exactly_plus (h : Exactly G S A st e t v u) (h' : Exactly G S A st (.star e) u [.slice vs] x) :
    Exactly G S A st (.plus e) t [.slice (v ++ vs)] x := by
  rintro s r ⟨n, hr⟩
  cases n with
  | zero => cases hr
  | succ n =>
    unfold runV at hr
    cases h1 : runV G S A n e st s t with
    | none => rw [h1] at hr; cases hr
    | some q =>
      rw [h1] at hr
      have hp := h _ _ ⟨n, h1⟩
      cases q with
      | fail s1 => cases hp
      | ok s1 v' u' =>
        cases hp
        dsimp only at hr
        cases h2 : runV G S A n (.star e) st s1 u with
        | none => rw [h2] at hr; cases hr
        | some q =>
          rw [h2] at hr
          have hq := h' _ _ ⟨n, h2⟩
          cases q with
          | fail s2 => cases hq
          | ok s2 w u'' => cases hq; cases hr; rfl
end Peg

namespace C64
open Peg Grammar Actions FragmentLoop Listed
open C59 (Code Cut alnum)
open C49 (LenCode)
open Paragraphs (Line)
open Walk (Any)

variable {σ : Type} {S : Sem σ} {A : Peg.Code σ} {t r u x z : Text}

/-- Spaces at the beginning. -/
theorem spacesV (hA : Obeys A) {st : Text} (hx : ∀ c, x.head? = some c → isBlank c = false) : ∀ {w : Text}, (∀ c ∈ w, isBlank c = true) →
    ∃ vs, Exactly grammar S A st (.star (.rule R.Space)) (w ++ x) [.slice vs] x
  | [], _ => ⟨[], exactly_star_stop (by
      cases x with
      | nil => exact never_Space_nil
      | cons c x => exact never_Space (hx c rfl))⟩
  | c :: w, hw => by
    obtain ⟨vs, h⟩ := spacesV hA hx (w := w) (fun d hd => hw d (List.mem_cons_of_mem _ hd))
    refine ⟨.text [c] :: vs, exactly_star_step (v := [.text [c]]) (exactly_rule (exactly_of_yields (yields_cls (by rw [has_blank]; exact hw c List.mem_cons_self)) (fun s v => ?_))) h⟩
    have : span (c :: (w ++ x)) (w ++ x) = [c] := C58.span_append [c] _
    show A 457 s v (span (c :: (w ++ x)) (w ++ x)) = _
    rw [this]
    exact hA 457 s v _ _ rfl

theorem mark_head {m : Mark} (hm : m.Ok) : ∃ c y, m.text = c :: y ∧ isBlank c = false ∧ isEol c = false ∧ c ≠ '<' := by
  cases m with
  | dash => exact ⟨_, _, rfl, rfl, rfl, by decide⟩
  | stars n =>
    obtain ⟨k, rfl⟩ : ∃ k, n = k + 1 := ⟨n - 1, by have := hm.1; omega⟩
    exact ⟨_, _, rfl, rfl, rfl, by decide⟩
  | dots n =>
    obtain ⟨k, rfl⟩ : ∃ k, n = k + 1 := ⟨n - 1, by have := hm.1; omega⟩
    exact ⟨_, _, rfl, rfl, rfl, by decide⟩
  | number ds =>
    obtain ⟨hne, hd⟩ := hm
    cases ds with
    | nil => exact absurd rfl hne
    | cons c ds =>
      have hc := hd c List.mem_cons_self
      have key : ∀ d : Char, ¬ ('0' ≤ d ∧ d ≤ '9') → c ≠ d := by rintro d h rfl; exact h hc
      exact ⟨c, _, rfl, by simp [isBlank, key '\t' (by decide), key ' ' (by decide)], by simp [isEol, key '\n' (by decide), key '\r' (by decide)], key _ (by decide)⟩
  | letter c =>
    have key : ∀ d : Char, ¬ ('a' ≤ d ∧ d ≤ 'z') → c ≠ d := by rintro d h rfl; exact h hm
    exact ⟨c, _, rfl, by simp [isBlank, key '\t' (by decide), key ' ' (by decide)], by simp [isEol, key '\n' (by decide), key '\r' (by decide)], key _ (by decide)⟩
  | capital c =>
    have key : ∀ d : Char, ¬ ('A' ≤ d ∧ d ≤ 'Z') → c ≠ d := by rintro d h rfl; exact h hm
    exact ⟨c, _, rfl, by simp [isBlank, key '\t' (by decide), key ' ' (by decide)], by simp [isEol, key '\n' (by decide), key '\r' (by decide)], key _ (by decide)⟩
  | roman ds =>
    obtain ⟨hne, hd⟩ := hm
    cases ds with
    | nil => exact absurd rfl hne
    | cons c ds =>
      have hc := hd c List.mem_cons_self
      have key : ∀ d : Char, d ∉ ['i', 'v', 'x', 'd', 'l', 'c', 'm'] → c ≠ d := by rintro d h rfl; exact h hc
      exact ⟨c, _, rfl, by simp [isBlank, key '\t' (by decide), key ' ' (by decide)], by simp [isEol, key '\n' (by decide), key '\r' (by decide)], key _ (by decide)⟩
  | capRoman ds =>
    obtain ⟨hne, hd⟩ := hm
    cases ds with
    | nil => exact absurd rfl hne
    | cons c ds =>
      have hc := hd c List.mem_cons_self
      have key : ∀ d : Char, d ∉ ['I', 'V', 'X', 'D', 'L', 'C', 'M'] → c ≠ d := by rintro d h rfl; exact h hc
      exact ⟨c, _, rfl, by simp [isBlank, key '\t' (by decide), key ' ' (by decide)], by simp [isEol, key '\n' (by decide), key '\r' (by decide)], key _ (by decide)⟩

theorem gap_rule (hA : Obeys A) {w : Text} (hw : ∀ c ∈ w, isBlank c = true) (hne : w ≠ []) (hx : ∀ c, x.head? = some c → isBlank c = false) {st : Text} :
    Exactly grammar S A st (.rule R.Spaces) (w ++ x) [.text w] x :=
  exactly_rule (exactly_of_yields (C63.yields_gap hw hne hx) (y := .text w) (fun s v => by rw [C58.span_append]; exact hA 458 s v _ _ rfl))

theorem mark_not_blank {m : Mark} (hm : m.Ok) : ∀ c, (m.text ++ x).head? = some c → isBlank c = false := by
  obtain ⟨d, y, e, h, _⟩ := mark_head hm
  rw [e]
  rintro c hc
  rw [← Option.some.inj hc]
  exact h

theorem gap_cons {w : Text} (hw : ∀ c ∈ w, isBlank c = true) (hne : w ≠ []) : ∃ b y, w ++ x = b :: y ∧ isBlank b = true := by
  cases w with
  | nil => exact absurd rfl hne
  | cons b w => exact ⟨b, _, rfl, hw b List.mem_cons_self⟩

theorem ordered_prefix (hC : ListCode S) (hA : Obeys A) {m : Mark} (hm : m.Ok) (ho : Ordered m) {i w : Text} (hi : ∀ c ∈ i, isBlank c = true) (hw : ∀ c ∈ w, isBlank c = true)
    (hne : w ≠ []) (hx : ∀ c, x.head? = some c → isBlank c = false) {st : Text} :
    Exactly grammar S A st (.rule R.OrderedListElementPrefix) (i ++ (m.text ++ (w ++ x))) [.plain (numbering m.style)] x := by
  obtain ⟨b, y, e, hb⟩ := gap_cons (x := x) hw hne
  refine exactly_rule ?_
  rw [ordered_rule]
  obtain ⟨vs, hs⟩ := spacesV (S := S) hA (st := i ++ (m.text ++ (w ++ x))) (mark_not_blank (x := w ++ x) hm) hi
  refine exactly_act (exactly_scope (exactly_seq hs (exactly_seq ?_ (gap_rule hA hw hne hx)))) (v := [.slice ([.slice vs] ++ ([.plain (numbering m.style)] ++ [.text w]))])
    (fun s => hA 267 s _ _ _ rfl)
  rw [e]
  exact marks_exactly hC hA hm ho hb

theorem never_ordered_bullet {m : Mark} (hm : m.Ok) (ho : ¬ Ordered m) {i : Text} (hi : ∀ c ∈ i, isBlank c = true) :
    Never grammar S (.rule R.OrderedListElementPrefix) (i ++ (m.text ++ x)) := by
  obtain ⟨c, y, e, hc⟩ : ∃ c y, m.text ++ x = c :: y ∧ (c = '-' ∨ c = '*') := by
    cases m with
    | dash => exact ⟨_, _, rfl, .inl rfl⟩
    | stars n =>
      obtain ⟨k, rfl⟩ : ∃ k, n = k + 1 := ⟨n - 1, by have := hm.1; omega⟩
      exact ⟨_, _, rfl, .inr rfl⟩
    | _ => exact absurd trivial ho
  refine yields_rule ?_
  rw [ordered_rule]
  refine yields_act (yields_scope (yields_seq (u := c :: y) (yields_spaces.to ?_) (never_seq ?_)))
  · rw [e, List.dropWhile_append_of_pos hi, List.dropWhile_cons_of_neg (by rcases hc with rfl | rfl <;> decide)]
  · have d : ∀ ch ∈ ['-', '*'], ch ≠ '.' ∧ ¬ ('0' ≤ ch ∧ ch ≤ '9') ∧ ¬ ('a' ≤ ch ∧ ch ≤ 'z') ∧ ¬ ('A' ≤ ch ∧ ch ≤ 'Z') ∧
        List.contains ['i', 'v', 'x', 'd', 'l', 'c', 'm'] ch = false ∧ List.contains ['I', 'V', 'X', 'D', 'L', 'C', 'M'] ch = false := by decide
    obtain ⟨d1, d2, d3, d4, d5, d6⟩ := d c (by rcases hc with rfl | rfl <;> decide)
    exact yields_alt_right (never_dots d1) (yields_alt_right (never_class (no_digit d2)) (yields_alt_right (never_letter (no_small d3))
      (yields_alt_right (never_letter (no_big d4)) (yields_alt_right (never_class (by rw [has_chars]; exact d5)) (never_class (by rw [has_chars]; exact d6))))))

/-- The bullet of a mark. -/
def bulletOf : Mark → Nat
  | .stars n => n
  | _ => 0

theorem bullet_style {m : Mark} (hm : m.Ok) (ho : ¬ Ordered m) : bulletStyle m.text = some (bulletOf m) ∧ m.style = .bullet (bulletOf m) := by
  cases m with
  | dash => exact ⟨rfl, rfl⟩
  | stars n =>
    obtain ⟨h1, h2⟩ := hm
    have : n = 1 ∨ n = 2 ∨ n = 3 ∨ n = 4 ∨ n = 5 := by omega
    rcases this with rfl | rfl | rfl | rfl | rfl <;> exact ⟨rfl, rfl⟩
  | _ => exact absurd trivial ho

theorem unordered_prefix (hC : ListCode S) (hA : Obeys A) {m : Mark} (hm : m.Ok) (ho : ¬ Ordered m) {i w : Text} (hi : ∀ c ∈ i, isBlank c = true) (hw : ∀ c ∈ w, isBlank c = true)
    (hne : w ≠ []) (hx : ∀ c, x.head? = some c → isBlank c = false) {st : Text} :
    Exactly grammar S A st (.rule R.UnorderedListElementPrefix) (i ++ (m.text ++ (w ++ x))) [.plain (bulletOf m)] x := by
  obtain ⟨b, y, e, hb⟩ := gap_cons (x := x) hw hne
  have hstar : (w ++ x).head? ≠ some '*' := by
    rw [e]
    intro h
    rw [Option.some.inj h] at hb
    cases hb
  refine exactly_rule ?_
  rw [unordered_rule]
  obtain ⟨vs, hs⟩ := spacesV (S := S) hA (st := i ++ (m.text ++ (w ++ x))) (mark_not_blank (x := w ++ x) hm) hi
  have hmark : Yields grammar S (.alt (.lit ['-']) (.plus (.lit ['*']))) (m.text ++ (w ++ x)) (some (w ++ x)) := by
    cases m with
    | dash => exact yields_alt_left (yields_lit.to (by simp [matchLit, Mark.text]))
    | stars n =>
      obtain ⟨k, rfl⟩ : ∃ k, n = k + 1 := ⟨n - 1, by have := hm.1; omega⟩
      show Yields grammar S _ ('*' :: (List.replicate k '*' ++ (w ++ x))) _
      refine yields_alt_right (yields_lit.to (by simp [matchLit])) ((yields_plus_lit (by decide)).to ?_)
      rw [List.dropWhile_append_of_pos (fun c hc => by simpa using (List.mem_replicate.mp hc).2)]
      generalize w ++ x = q at hstar
      cases q with
      | nil => rfl
      | cons c q => rw [List.dropWhile_cons_of_neg (fun h => hstar (by simpa using h))]
    | _ => exact absurd trivial ho
  have hp : ∀ s, (S.pred 270 s (i ++ (m.text ++ (w ++ x))) (w ++ x)).1 = true := by
    intro s
    cases m with
    | dash => exact hC.dash s i _ hi
    | stars n => exact (hC.stars s i n _ hi hstar).trans (decide_eq_true hm.2)
    | _ => exact absurd trivial ho
  refine exactly_act (exactly_scope (exactly_seq hs (exactly_seq (exactly_of_yields hmark (y := .text m.text) (fun s v => ?_))
    (exactly_seq (exactly_pred hp) (gap_rule hA hw hne hx))))) (fun s => ?_)
  · rw [C58.span_append]; exact hA 269 s v _ _ rfl
  · refine hA 271 s _ _ _ ?_
    show (bulletStyle m.text).map Any.plain = _
    rw [(bullet_style hm ho).1]
    rfl

/-- The first line. -/
theorem content_rule (hA : Obeys A) (hz : Cut z r) {l : Line} (h : l.Ok) {st : Text} :
    Exactly grammar S A st (.rule R.ListElementContent) (l.full ++ z) [.paragraph [] [.raw l.text]] r := by
  obtain ⟨v, hv⟩ := C62.eolV (S := S) hA hz
  have h1 : ∀ st, Exactly grammar S A st (.act 253 (.plus (.cls ⟨true, ['\r', '\n'], [], false, false⟩))) (l.full ++ z) [.raw l.text] z := fun st =>
    exactly_of_yields (C59.yields_chars hz h) (fun s v => by
      rw [C58.span_append, ← C59.trimRight_full h]; exact hA 253 s v _ _ rfl)
  have h2 : Never grammar S (.act 253 (.plus (.cls ⟨true, ['\r', '\n'], [], false, false⟩))) z := by
    refine yields_act (never_plus ?_)
    cases hz with
    | line => exact yields_cls_no (by rw [has_line]; rfl)
    | eof => exact yields_cls_nil
  exact exactly_rule (exactly_act (exactly_scope (exactly_seq (exactly_plus (h1 _) (exactly_star_stop h2)) (hv _))) (fun s => hA 254 s _ _ _ rfl))

/-- What the parser makes of the first line of an item. -/
def itemStart (e : Entry) : Any := .group (label e.mark.style) [] [.paragraph [] [.raw e.first.text]]

theorem entry_first {alnum : Char → Bool} {e : Entry} (h : e.Ok alnum) : ∀ c, (e.first.full ++ x).head? = some c → isBlank c = false ∧ c ≠ '[' ∧ c ≠ '*' ∧ c ≠ '-' := by
  obtain ⟨c, y, e1, hs, hn⟩ := h.first
  intro d hd
  rw [Line.full, e1] at hd
  rw [← Option.some.inj hd]
  simp only [List.mem_cons, List.not_mem_nil, or_false, not_or] at hn
  refine ⟨?_, hn⟩
  cases hb : isBlank c with
  | false => rfl
  | true =>
    simp only [isBlank, Bool.or_eq_true, beq_iff_eq] at hb
    rcases hb with rfl | rfl <;> cases hs

theorem entry_gap {alnum : Char → Bool} {e : Entry} (h : e.Ok alnum) : (∀ c ∈ e.gap, isBlank c = true) ∧ e.gap ≠ [] := by
  obtain ⟨w, e1, hw⟩ := h.gap
  rw [e1]
  refine ⟨fun c hc => ?_, by simp⟩
  rcases List.mem_cons.mp hc with rfl | hc
  · rfl
  · exact hw c hc

/-- The line of an item. -/
theorem item_rule (hC : ListCode S) (hA : Obeys A) (hz : Cut z r) {alnum : Char → Bool} {e : Entry} (h : e.Ok alnum) {st : Text} :
    Exactly grammar S A st items (e.line ++ z) [itemStart e] r := by
  have ht : e.line ++ z = e.indent ++ (e.mark.text ++ (e.gap ++ (e.first.full ++ z))) := by simp [Entry.line]
  rw [ht]
  obtain ⟨hw, hne⟩ := entry_gap h
  have hx := fun c hc => entry_first (x := z) h c hc
  by_cases ho : Ordered e.mark
  · refine exactly_alt_left (exactly_rule (exactly_act (exactly_scope (exactly_seq (ordered_prefix hC hA h.mark ho h.indent hw hne (fun c hc => (hx c hc).1))
      (content_rule hA hz h.one))) (fun s => ?_)))
    refine hA 258 s _ _ _ ?_
    show some (Any.group (orderedLabel (numbering e.mark.style)) [] _) = _
    unfold itemStart
    have : label e.mark.style = orderedLabel (numbering e.mark.style) := by
      cases hm : e.mark with
      | dash => rw [hm] at ho; exact ho.elim
      | stars _ => rw [hm] at ho; exact ho.elim
      | dots n =>
        have := h.mark
        rw [hm] at this
        obtain ⟨h1, h2⟩ := this
        have : n = 1 ∨ n = 2 ∨ n = 3 ∨ n = 4 ∨ n = 5 := by omega
        rcases this with rfl | rfl | rfl | rfl | rfl <;> rfl
      | _ => rfl
    rw [this]
  · refine exactly_alt_right (yields_rule (yields_act (yields_scope (never_seq (never_ordered_bullet h.mark ho h.indent))))) (exactly_alt_left (exactly_rule (exactly_act
      (exactly_scope (exactly_seq (unordered_prefix hC hA h.mark ho h.indent hw hne (fun c hc => (hx c hc).1)) (exactly_seq (exactly_opt_never (never_box ?_))
      (content_rule hA hz h.one)))) (fun s => ?_))))
    · exact fun hc => (hx _ hc).2.1 rfl
    · refine hA 268 s _ _ _ ?_
      unfold itemStart
      rw [(bullet_style h.mark ho).2]
      rfl

/-! ### What follows an item -/

/-- The lines `ls`, of which the last one ends with `z`, and the rest `r`. -/
def tail (z r : Text) : List Text → Text
  | [] => r
  | l :: ls => joinLF (l :: ls) ++ z

theorem tail_cons (hz : Cut z r) (l : Text) (ls : List Text) : ∃ z', Cut z' (tail z r ls) ∧ tail z r (l :: ls) = l ++ z' ∧ (ls ≠ [] → z' ≠ []) := by
  cases ls with
  | nil => exact ⟨z, hz, rfl, fun h => absurd rfl h⟩
  | cons l' ls => exact ⟨_, .line, by simp [tail, joinLF], fun _ h => nomatch h⟩

/-- Not a blank line. -/
def Solid (t : Text) : Prop := t = [] ∨ ∃ c y, t.dropWhile isBlank = c :: y ∧ isEol c = false

theorem never_blankLine (h : Solid t) : Never grammar S (.rule R.BlankLine) t := by
  refine yields_BlankLine.to ?_
  rcases h with rfl | ⟨c, y, e, hc⟩
  · rfl
  · cases t with
    | nil => cases e
    | cons d t =>
      show eol (List.dropWhile isBlank (d :: t)) = none
      rw [e]
      have := C63.never_EOL (S := S) (t := y) hc
      show newline (c :: y) = none
      rw [newline_lit]
      simp only [isEol, Bool.or_eq_false_iff, beq_eq_false_iff_ne] at hc
      simp [matchLit, Ne.symm hc.1, Ne.symm hc.2]

/-- A line before a continuation. -/
def offset : Exp := .scope (.seq (.star (.rule R.Space)) (.rule R.Newline))

theorem never_newline {c : Char} (hc : isEol c = false) : Never grammar S (.rule R.Newline) (c :: t) := by
  refine yields_Newline.to ?_
  rw [newline_lit]
  simp only [isEol, Bool.or_eq_false_iff, beq_eq_false_iff_ne] at hc
  simp [matchLit, Ne.symm hc.1, Ne.symm hc.2]

theorem never_offset (h : Solid t) : Never grammar S offset t := by
  refine yields_scope (yields_seq yields_spaces ?_)
  rcases h with rfl | ⟨c, y, e, hc⟩
  · exact yields_Newline
  · rw [e]; exact never_newline hc

/-- Blank lines, and then `x`. -/
inductive Blanks (x : Text) : Text → Prop where
  | done : Blanks x x
  | line {w z r : Text} : (∀ c ∈ w, isBlank c = true) → Cut z r → w ++ z ≠ [] → Blanks x r → Blanks x (w ++ z)

theorem blanks_star (h : Solid x) (hb : Blanks x t) : Yields grammar S (.star (.rule R.BlankLine)) t (some x) := by
  induction hb with
  | done => exact yields_star_stop (never_blankLine h)
  | line hw hz hn _ ih => exact yields_star_step (C59.blank_line hz hn hw) ih

theorem blanks_offset (h : Solid x) (hm : Never grammar S (.rule R.ListContinuationMarker) x) (hb : Blanks x t) :
    ∃ u, Yields grammar S (.star offset) t (some u) ∧ Never grammar S (.rule R.ListContinuationMarker) u := by
  induction hb with
  | done => exact ⟨x, yields_star_stop (never_offset h), hm⟩
  | @line w z r hw hz hn _ ih =>
    obtain ⟨u, h1, h2⟩ := ih
    cases hz with
    | line =>
      refine ⟨u, yields_star_step (u := r) (yields_scope (yields_seq (u := '\n' :: r) (yields_spaces.to ?_) (yields_Newline.to rfl))) h1, h2⟩
      rw [List.dropWhile_append_of_pos hw, List.dropWhile_cons_of_neg (by decide)]
    | eof =>
      rw [List.append_nil] at hn ⊢
      cases w with
      | nil => exact absurd rfl hn
      | cons c w =>
        refine ⟨c :: w, yields_star_stop (yields_scope (yields_seq (u := []) (yields_spaces.to ?_) yields_Newline)), ?_⟩
        · rw [← List.append_nil (c :: w), List.dropWhile_append_of_pos hw]
          rfl
        · have hc := hw c List.mem_cons_self
          refine starts_never (F := ['+']) ?_ 24 _ (by decide)
          intro hm
          rw [List.mem_singleton.mp hm] at hc
          cases hc

theorem never_continuation (h : Solid x) (hm : Never grammar S (.rule R.ListContinuationMarker) x) (hb : Blanks x t) : Never grammar S (.rule R.ListContinuation) t := by
  obtain ⟨u, h1, h2⟩ := blanks_offset (S := S) h hm hb
  exact yields_rule (yields_act (yields_scope (yields_seq h1 (never_seq h2))))

theorem noItem_nil : NoItem [] where
  mark u h := by
    obtain ⟨m, b, y, _, _, e, _⟩ := h
    simp at e
  callout h := nomatch h
  label := ⟨[], [], [], rfl, .eof, fun _ h => (nomatch h), by decide⟩

/-- Items in what follows. -/
def more : Exp := .act 249 (.scope (.seq (.star (.rule R.BlankLine)) items))

/-- Items with attributes. -/
def attributed : Exp := .act 250 (.scope (.seq (.plus (.rule R.BlockAttributes)) items))

theorem extra_rule : grammar R.ExtraListElement = .act 251 (.scope (.seq (.rule R.NotEOF) (.alt more (.alt attributed (.alt (.rule R.ListContinuation) (.alt (.rule R.SinglelineComment)
    (.rule R.ListElementParagraphLine))))))) := rfl

/-- After blank lines, nothing that belongs to the list. -/
theorem never_extra (hC : ListCode S) (hx : Solid x) (hn : NoItem x) (hm : Never grammar S (.rule R.ListContinuationMarker) x) {w : Text} (hw : ∀ c ∈ w, isBlank c = true)
    (hz : Cut z r) (h0 : w ++ z ≠ []) (hb : Blanks x r) : Never grammar S (.rule R.ExtraListElement) (w ++ z) := by
  have hb' : Blanks x (w ++ z) := .line hw hz h0 hb
  have h1 := blanks_star (S := S) hx hb'
  have h2 := never_continuation hx hm hb'
  have h3 := (C59.blank_line (S := S) hz h0 hw).sure
  obtain ⟨c, y, e, hc⟩ : ∃ c y, w ++ z = c :: y ∧ c ∉ ['[', '.', '/'] := by
    cases w with
    | nil =>
      cases hz with
      | line => exact ⟨_, _, rfl, by decide⟩
      | eof => exact absurd rfl h0
    | cons c w =>
      refine ⟨c, _, rfl, ?_⟩
      have := hw c List.mem_cons_self
      simp only [isBlank, Bool.or_eq_true, beq_iff_eq] at this
      rcases this with rfl | rfl <;> decide
  rw [e] at h1 h2 h3 ⊢
  refine yields_rule ?_
  rw [extra_rule]
  exact yields_act (yields_scope (yields_seq yields_NotEOF (yields_alt_right (yields_act (yields_scope (yields_seq h1 (never_items hC hn))))
    (yields_alt_right (yields_act (yields_scope (never_seq (never_plus (starts_never hc 24 _ (by decide)))))) (yields_alt_right h2 (yields_alt_right (starts_never hc 24 _ (by decide))
    (yields_rule (yields_act (yields_scope (never_seq (never_notP h3)))))))))))

theorem never_extra_nil : Never grammar S (.rule R.ExtraListElement) [] := by
  refine yields_rule ?_
  rw [extra_rule]
  exact yields_act (yields_scope (never_seq never_NotEOF))

/-- The alternatives before lines. -/
theorem never_before (hC : ListCode S) (hx : Solid t) (hn : NoItem t) (hm : Never grammar S (.rule R.ListContinuationMarker) t) (ha : Never grammar S (.rule R.BlockAttributes) t) :
    Never grammar S more t ∧ Never grammar S attributed t ∧ Never grammar S (.rule R.ListContinuation) t :=
  ⟨yields_act (yields_scope (yields_seq (blanks_star hx .done) (never_items hC hn))), yields_act (yields_scope (never_seq (never_plus ha))), never_continuation hx hm .done⟩

end C64
end Verif
