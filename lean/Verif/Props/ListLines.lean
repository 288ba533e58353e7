import Verif.Props.ListItems

/-!
# C64, continued — Whole lists
-/
namespace Verif
namespace C64
open Peg Grammar Actions FragmentLoop Listed
open C59 (Code Cut alnum)
open C49 (LenCode)
open Paragraphs (Line)
open Walk (Any)

variable {σ : Type} {S : Sem σ} {A : Peg.Code σ} {t r u x z : Text}

theorem mark_inline {m : Mark} (hm : m.Ok) : ∀ c ∈ m.text, isEol c = false := by
  have dig : ∀ c : Char, '0' ≤ c ∧ c ≤ '9' → isEol c = false := by
    intro c hc
    have key : ∀ d : Char, ¬ ('0' ≤ d ∧ d ≤ '9') → c ≠ d := by rintro d h rfl; exact h hc
    simp [isEol, key '\n' (by decide), key '\r' (by decide)]
  have low : ∀ c : Char, 'a' ≤ c ∧ c ≤ 'z' → isEol c = false := by
    intro c hc
    have key : ∀ d : Char, ¬ ('a' ≤ d ∧ d ≤ 'z') → c ≠ d := by rintro d h rfl; exact h hc
    simp [isEol, key '\n' (by decide), key '\r' (by decide)]
  have big : ∀ c : Char, 'A' ≤ c ∧ c ≤ 'Z' → isEol c = false := by
    intro c hc
    have key : ∀ d : Char, ¬ ('A' ≤ d ∧ d ≤ 'Z') → c ≠ d := by rintro d h rfl; exact h hc
    simp [isEol, key '\n' (by decide), key '\r' (by decide)]
  intro c hc
  cases m with
  | dash => rw [List.mem_singleton.mp hc]; rfl
  | stars n => rw [(List.mem_replicate.mp hc).2]; rfl
  | dots n => rw [(List.mem_replicate.mp hc).2]; rfl
  | number ds =>
    rcases List.mem_append.mp hc with hc | hc
    · exact dig c (hm.2 c hc)
    · rw [List.mem_singleton.mp hc]; rfl
  | letter d =>
    rcases List.mem_cons.mp hc with rfl | hc
    · exact low _ hm
    · rw [List.mem_singleton.mp hc]; rfl
  | capital d =>
    rcases List.mem_cons.mp hc with rfl | hc
    · exact big _ hm
    · rw [List.mem_singleton.mp hc]; rfl
  | roman ds =>
    rcases List.mem_append.mp hc with hc | hc
    · have := hm.2 c hc
      simp only [List.mem_cons, List.not_mem_nil, or_false] at this
      rcases this with rfl | rfl | rfl | rfl | rfl | rfl | rfl <;> rfl
    · rw [List.mem_singleton.mp hc]; rfl
  | capRoman ds =>
    rcases List.mem_append.mp hc with hc | hc
    · have := hm.2 c hc
      simp only [List.mem_cons, List.not_mem_nil, or_false] at this
      rcases this with rfl | rfl | rfl | rfl | rfl | rfl | rfl <;> rfl
    · rw [List.mem_singleton.mp hc]; rfl

/-- Whether a line looks like an item depends on this line only. -/
theorem looks_line (hz : Cut z r) {l : Text} (h : Looks (l ++ z)) : Looks l := by
  obtain ⟨m, hm, b, hb, hp⟩ := h
  refine ⟨m, hm, b, hb, C59.prefix_line hz ?_ hp⟩
  intro c hc
  rcases List.mem_append.mp hc with hc | hc
  · exact mark_inline hm c hc
  · rw [List.mem_singleton.mp hc]; exact C62.blank_inline hb

theorem alnum_char (hS : Code S) {c : Char} (h : alnum S c = true) : isBlank c = false ∧ isEol c = false ∧ c ∉ ['[', '.', '/', '=', '-', '`', '+', '_', '*', '<'] := by
  have h1 := C59.alnum_not_mem hS h ['\t', ' '] (by decide)
  have h2 := C59.alnum_not_mem hS h ['\n', '\r'] (by decide)
  simp only [List.mem_cons, List.not_mem_nil, or_false, not_or] at h1 h2
  exact ⟨by simp [isBlank, h1.1, h1.2], by simp [isEol, h2.1, h2.2], C59.alnum_not_mem hS h _ (by decide)⟩

/-- The first visible character of a line, which does not look like an item. -/
theorem noItem_line (hS : Code S) (hz : Cut z r) {l w y : Text} {c : Char} (e : l = w ++ c :: y) (hw : ∀ x ∈ w, isBlank x = true) (hc : alnum S c = true) (hl : ¬ Looks (c :: y))
    (h1 : ∀ c ∈ l, isEol c = false) (hn : ¬ [':', ':'] <:+: l) :
    NoItem (l ++ z) ∧ Solid (l ++ z) ∧ (∀ u, ¬ ItemAt (l ++ z) u) ∧ ∃ d q, l ++ z = d :: q ∧ d ∉ ['[', '.', '/', '=', '-', '`', '+', '_', '*', '<'] := by
  obtain ⟨hb, he, hf⟩ := alnum_char hS hc
  have hd : (l ++ z).dropWhile isBlank = c :: y ++ z := by
    rw [e, List.append_assoc, List.dropWhile_append_of_pos hw, List.cons_append, List.dropWhile_cons_of_neg (by rw [hb]; decide)]
  have hno : ∀ u, ¬ ItemAt (l ++ z) u := by
    intro u hu
    have := itemAt_looks hu
    rw [hd] at this
    exact hl (looks_line hz this)
  have hfirst : ∃ d q, l ++ z = d :: q ∧ d ∉ ['[', '.', '/', '=', '-', '`', '+', '_', '*', '<'] := by
    rw [e]
    cases w with
    | nil => exact ⟨c, _, rfl, hf⟩
    | cons d w =>
      refine ⟨d, _, rfl, ?_⟩
      have := hw d List.mem_cons_self
      simp only [isBlank, Bool.or_eq_true, beq_iff_eq] at this
      rcases this with rfl | rfl <;> decide
  refine ⟨⟨fun u hu => absurd hu (hno u), ?_, l, z, r, rfl, hz, h1, hn⟩, .inr ⟨c, _, hd, he⟩, hno, hfirst⟩
  obtain ⟨d, q, e2, hd2⟩ := hfirst
  rw [e2]
  intro h
  rw [Option.some.inj h] at hd2
  exact hd2 (by decide)

/-- A line that continues an item. -/
theorem line_rule (hS : Code S) (hC : ListCode S) (hA : Obeys A) (hz : Cut z r) {l : Line} (h : l.Ok) (hc : Listed.Continues (alnum S) l) {st : Text} :
    Exactly grammar S A st (.rule R.ExtraListElement) (l.full ++ z) [.raw l.text] r := by
  obtain ⟨w, c, y, e, hw, ha, hl⟩ := hc.first
  obtain ⟨hn, hs, hno, d, q, e2, hd⟩ := noItem_line hS hz e hw ha hl h.one hc.noLabel
  have h1 : ∀ st, Exactly grammar S A st (.rule R.ManyChars) (l.full ++ z) [.text l.full] z := fun st =>
    exactly_rule (exactly_of_yields (C59.yields_chars hz h) (fun s v => by
      rw [C58.span_append]; exact hA 446 s v _ _ rfl))
  obtain ⟨v, hv⟩ := C62.eolV (S := S) hA hz
  have hterm : Never grammar S (.scope (.seq (.rule R.LabeledListElementTerm) (.rule R.LabeledListElementSeparator))) (l.full ++ z) :=
    yields_scope (never_term hC hz h.one hc.noLabel (never_colon hz hC))
  have hord : Never grammar S (.rule R.OrderedListElementPrefix) (l.full ++ z) := never_of_ok (fun _ _ _ u h => hno u (ok_ordered hC h))
  have hun : Never grammar S (.rule R.UnorderedListElementPrefix) (l.full ++ z) := never_of_ok (fun _ _ _ u h => hno u (ok_unordered hC h))
  have hbl := never_blankLine (S := S) hs
  rw [e2] at hterm hord hun h1 hbl hn hs ⊢
  have never : ∀ (e : Exp) (F : List Char), F ⊆ ['[', '.', '/', '=', '-', '`', '+', '_', '*', '<'] → starts grammar F 24 e = true → Never grammar S e (d :: q) :=
    fun e F h1 h2 => starts_never (fun hd' => hd (h1 hd')) 24 e h2
  have hplus := never (.rule R.ListContinuationMarker) ['+'] (by decide) (by decide)
  obtain ⟨n1, n2, n3⟩ := never_before hC hs hn hplus (never (.rule R.BlockAttributes) ['[', '.'] (by decide) (by decide))
  have hline : ∀ st, Exactly grammar S A st (.rule R.ListElementParagraphLine) (d :: q) [.raw l.text] r := fun st => by
    refine exactly_rule (exactly_act (exactly_scope (exactly_seq (exactly_notP hbl) (exactly_seq (exactly_notP hplus) (exactly_seq (exactly_notP hord) (exactly_seq (exactly_notP hun)
      (exactly_seq (exactly_notP (never _ ['<'] (by decide) (by decide))) (exactly_seq (exactly_notP hterm) (exactly_seq (exactly_notP (never _ ['/', '=', '`', '-', '.', '+', '_', '*'] (by decide) (by decide)))
      (exactly_seq (h1 _) (hv _)))))))))) (fun s => ?_))
    rw [← C59.trimRight_full h]
    exact hA 252 s _ _ _ rfl
  refine exactly_rule ?_
  rw [extra_rule]
  exact exactly_act (exactly_scope (exactly_seq C59.exactly_NotEOF (exactly_alt_right n1 (exactly_alt_right n2 (exactly_alt_right n3 (exactly_alt_right (never _ ['/'] (by decide) (by decide))
    (hline _))))))) (fun s => hA 251 s _ _ _ rfl)

/-! ### Items with lines -/

theorem entry_solid {alnum : Char → Bool} {e : Entry} (h : e.Ok alnum) : Solid (e.line ++ x) := by
  obtain ⟨c, y, e1, hb, he, _⟩ := mark_head h.mark
  refine .inr ⟨c, y ++ (e.gap ++ e.first.full) ++ x, ?_, he⟩
  rw [Entry.line, e1]
  simp only [List.append_assoc, List.cons_append]
  rw [List.dropWhile_append_of_pos h.indent, List.dropWhile_cons_of_neg (by rw [hb]; decide)]

theorem blankLineV (hA : Obeys A) (hz : Cut z r) {w : Text} (hn : w ++ z ≠ []) (hw : ∀ c ∈ w, isBlank c = true) {st : Text} :
    Exactly grammar S A st (.rule R.BlankLine) (w ++ z) [.leaf 0] r := by
  have h := C59.blank_line (S := S) hz hn hw
  have : Yields grammar S (.scope (.seq (.rule R.NotEOF) (.seq (.star (.rule R.Space)) (.rule R.EOL)))) (w ++ z) (some r) := by
    intro st s q hq
    cases hq' : q with
    | fail s1 =>
      have : Eval grammar S (.rule R.BlankLine) st s (w ++ z) (.fail s1) := eval_rule.mpr (eval_act.mpr (.inl ⟨s1, eval_scope.mpr (by
        rw [hq'] at hq
        exact eval_scope.mp hq), rfl⟩))
      exact h _ _ _ this
    | ok s1 v =>
      rw [hq'] at hq
      have : Eval grammar S (.rule R.BlankLine) st s (w ++ z) (.ok (S.act 111 s1 (w ++ z) v) v) := eval_rule.mpr (eval_act.mpr (.inr ⟨s1, v, eval_scope.mpr (eval_scope.mp hq), rfl⟩))
      have q' := h _ _ _ this
      exact q'
  exact exactly_rule (exactly_of_yields this (fun s v => hA 111 s v _ _ rfl))

/-- Blank lines before an item. -/
theorem skipped_star (hA : Obeys A) (hz : Cut z r) {l : Text} {ls : List Text} (hx : Solid (tail z r (l :: ls))) {st : Text} :
    ∀ {ws : List Text}, (∀ w ∈ ws, ∀ c ∈ w, isBlank c = true) → ∃ vs, Exactly grammar S A st (.star (.rule R.BlankLine)) (tail z r (ws ++ l :: ls)) [.slice vs] (tail z r (l :: ls))
  | [], _ => ⟨[], exactly_star_stop (never_blankLine hx)⟩
  | w :: ws, hw => by
    obtain ⟨vs, h⟩ := skipped_star hA hz hx (ws := ws) (fun w' hw' => hw w' (List.mem_cons_of_mem _ hw'))
    obtain ⟨z', hz', e, hn⟩ := tail_cons hz w (ws ++ l :: ls)
    refine ⟨.leaf 0 :: vs, ?_⟩
    rw [List.cons_append, e]
    refine exactly_star_step (v := [.leaf 0]) (blankLineV hA hz' ?_ (hw w List.mem_cons_self)) h
    intro h0
    exact hn (by simp) (List.append_eq_nil_iff.mp h0).2

/-- The next item. -/
theorem next_item (hC : ListCode S) (hA : Obeys A) (hz : Cut z r) {alnum : Char → Bool} {e : Entry} (h : e.Ok alnum) {ls : List Text} {st : Text} :
    Exactly grammar S A st (.rule R.ExtraListElement) (tail z r (e.skipped ++ e.line :: ls)) [itemStart e] (tail z r ls) := by
  obtain ⟨z', hz', e1, _⟩ := tail_cons hz e.line ls
  have hs : Solid (tail z r (e.line :: ls)) := by rw [e1]; exact entry_solid h
  have hi := fun st => item_rule (st := st) hC hA hz' h
  rw [← e1] at hi
  obtain ⟨vs, hv⟩ := skipped_star (S := S) hA hz hs (st := tail z r (e.skipped ++ e.line :: ls)) (ws := e.skipped) (fun w hw => h.skipped w hw)
  have hne : tail z r (e.skipped ++ e.line :: ls) ≠ [] := by
    cases hsk : e.skipped with
    | nil =>
      rw [List.nil_append, e1]
      intro h0
      have := (List.append_eq_nil_iff.mp h0).1
      rw [Entry.line] at this
      obtain ⟨c, y, e2, _⟩ := mark_head h.mark
      rw [e2] at this
      simp at this
    | cons w ws =>
      obtain ⟨z2, _, e3, hn⟩ := tail_cons hz w (ws ++ e.line :: ls)
      rw [List.cons_append, e3]
      intro h0
      exact hn (by simp) (List.append_eq_nil_iff.mp h0).2
  refine exactly_rule ?_
  rw [extra_rule]
  cases hc : tail z r (e.skipped ++ e.line :: ls) with
  | nil => exact absurd hc hne
  | cons c q =>
    rw [hc] at hv
    exact exactly_act (exactly_scope (exactly_seq C59.exactly_NotEOF (exactly_alt_left (exactly_act (exactly_scope (exactly_seq hv (hi _))) (fun s => hA 249 s _ _ _ rfl)))))
      (fun s => hA 251 s _ _ _ rfl)

/-- The values for the lines of an item. -/
def values (e : Entry) : List Any := itemStart e :: e.more.map (fun l => .raw l.text)

theorem lines_star (hS : Code S) (hC : ListCode S) (hA : Obeys A) (hz : Cut z r) {ls : List Text} {vs : List Any} {st : Text}
    (h : Exactly grammar S A st (.star (.rule R.ExtraListElement)) (tail z r ls) [.slice vs] r) : ∀ {ms : List Line}, (∀ l ∈ ms, l.Ok ∧ Listed.Continues (alnum S) l) →
    Exactly grammar S A st (.star (.rule R.ExtraListElement)) (tail z r (ms.map Line.full ++ ls)) [.slice (ms.map (fun l => .raw l.text) ++ vs)] r
  | [], _ => h
  | m :: ms, hm => by
    have ih := lines_star hS hC hA hz h (ms := ms) (fun l hl => hm l (List.mem_cons_of_mem _ hl))
    obtain ⟨z', hz', e, _⟩ := tail_cons hz m.full (ms.map Line.full ++ ls)
    rw [List.map_cons, List.cons_append, e]
    exact exactly_star_step (v := [.raw m.text]) (line_rule hS hC hA hz' (hm m List.mem_cons_self).1 (hm m List.mem_cons_self).2) ih

theorem entries_star (hS : Code S) (hC : ListCode S) (hA : Obeys A) (hz : Cut z r) (hr : Never grammar S (.rule R.ExtraListElement) r) {st : Text} :
    ∀ {es : List Entry}, (∀ e ∈ es, e.Ok (alnum S)) → Exactly grammar S A st (.star (.rule R.ExtraListElement)) (tail z r (es.flatMap Entry.lines)) [.slice (es.flatMap values)] r
  | [], _ => exactly_star_stop hr
  | e :: es, he => by
    have ih := entries_star hS hC hA hz hr (st := st) (es := es) (fun e he' => he e (List.mem_cons_of_mem _ he'))
    have hok := he e List.mem_cons_self
    have h1 := lines_star hS hC hA hz ih (ms := e.more) hok.more
    rw [List.flatMap_cons, List.flatMap_cons, Entry.lines, values, List.append_assoc, List.cons_append, List.cons_append]
    exact exactly_star_step (v := [itemStart e]) (next_item hC hA hz hok) h1

/-! ### The values -/

/-- What the parser makes of an item. -/
def itemEl (e : Entry) : Any := .group (label e.mark.style) [] [.paragraph [] (Paragraphs.kept (e.first :: e.more))]

theorem kept_snoc (l : Line) : ∀ (ls : List Line), ls ≠ [] → addToParagraph (Paragraphs.kept ls) (.raw l.text) = Paragraphs.kept (ls ++ [l])
  | [], h => absurd rfl h
  | [_], _ => rfl
  | l1 :: l2 :: ls, _ => by
    have ih := kept_snoc l (l2 :: ls) (fun h => nomatch h)
    have hk : Paragraphs.kept (l1 :: l2 :: ls) = .raw (l1.text ++ ['\n']) :: Paragraphs.kept (l2 :: ls) := rfl
    obtain ⟨a, as, ha⟩ : ∃ a as, Paragraphs.kept (l2 :: ls) = a :: as := by cases ls <;> exact ⟨_, _, rfl⟩
    have : addToParagraph (.raw (l1.text ++ ['\n']) :: a :: as) (.raw l.text) = .raw (l1.text ++ ['\n']) :: addToParagraph (a :: as) (.raw l.text) := by
      unfold addToParagraph
      rw [List.getLast?_cons_cons]
      cases (a :: as).getLast? with
      | none => rfl
      | some q => cases q <;> rfl
    rw [hk, ha, this, ← ha, ih]
    rfl

theorem add_lines (acc : List Any) (n : Nat) (vs : List Any) : ∀ (ms ls : List Line), ls ≠ [] →
    newListElements (acc ++ [.group n [] [.paragraph [] (Paragraphs.kept ls)]]) (ms.map (fun l => .raw l.text) ++ vs) =
      newListElements (acc ++ [.group n [] [.paragraph [] (Paragraphs.kept (ls ++ ms))]]) vs
  | [], ls, _ => by rw [List.append_nil]; rfl
  | m :: ms, ls, h => by
    have ih := add_lines acc n vs ms (ls ++ [m]) (by simp)
    rw [List.append_assoc] at ih
    refine Eq.trans ?_ ih
    show newListElements _ (.raw m.text :: (ms.map (fun l => .raw l.text) ++ vs)) = _
    conv => lhs; unfold newListElements
    rw [List.getLast?_concat, List.dropLast_concat]
    dsimp only
    rw [← kept_snoc m ls h]
    rfl

theorem collect : ∀ (es : List Entry) (acc : List Any), newListElements acc (es.flatMap values) = some (acc ++ es.map itemEl)
  | [], acc => by rw [List.map_nil, List.append_nil]; rfl
  | e :: es, acc => by
    have h := add_lines acc (label e.mark.style) (es.flatMap values) e.more [e.first] (fun h => nomatch h)
    rw [List.flatMap_cons, values]
    show newListElements acc (itemStart e :: (e.more.map (fun l => Any.raw l.text) ++ es.flatMap values)) = _
    have : newListElements acc (itemStart e :: (e.more.map (fun l => Any.raw l.text) ++ es.flatMap values)) =
      newListElements (acc ++ [itemStart e]) (e.more.map (fun l => Any.raw l.text) ++ es.flatMap values) := rfl
    rw [this]
    refine h.trans ?_
    rw [collect es]
    simp [itemEl]

theorem no_slices (es : List Entry) : (es.flatMap values).all (fun e => match e with | .slice _ => false | _ => true) = true := by
  rw [List.all_eq_true]
  intro x hx
  obtain ⟨e, _, hx⟩ := List.mem_flatMap.mp hx
  rcases List.mem_cons.mp hx with rfl | hx
  · rfl
  · obtain ⟨l, _, rfl⟩ := List.mem_map.mp hx
    rfl

/-- What the parser makes of a list. -/
def listEl (es : List Entry) : Any := .group listLabel [] (es.map itemEl)

/-- A list. -/
theorem list_rule (hS : Code S) (hC : ListCode S) (hA : Obeys A) (hz : Cut z r) (hr : Never grammar S (.rule R.ExtraListElement) r) {e : Entry} {es : List Entry}
    (h : ∀ e' ∈ e :: es, e'.Ok (alnum S)) (hsk : e.skipped = []) {st : Text} :
    Exactly grammar S A st (.rule R.ListElements) (tail z r ((e :: es).flatMap Entry.lines)) [listEl (e :: es)] r := by
  have hok := h e List.mem_cons_self
  have ih := fun st => entries_star (st := st) hS hC hA hz hr (es := es) (fun e he' => h e (List.mem_cons_of_mem _ he'))
  have h1 := fun st => lines_star (st := st) hS hC hA hz (ih st) (ms := e.more) hok.more
  rw [List.flatMap_cons, Entry.lines, hsk, List.nil_append, List.cons_append]
  obtain ⟨z', hz', e1, _⟩ := tail_cons hz e.line (e.more.map Line.full ++ es.flatMap Entry.lines)
  rw [e1]
  have he : ∀ st, Exactly grammar S A st (.rule R.ExtraListElements) (tail z r (e.more.map Line.full ++ es.flatMap Entry.lines))
      [.slice (e.more.map (fun l => .raw l.text) ++ es.flatMap values)] r := fun st =>
    exactly_rule (exactly_act (h1 _) (fun s => hA 248 s _ _ _ (if_pos (by
      have := no_slices (e :: es)
      rw [List.flatMap_cons, values, List.cons_append, List.all_cons] at this
      exact (Bool.and_eq_true_iff.mp this).2))))
  refine exactly_rule (exactly_act (exactly_scope (exactly_seq (exactly_rule (item_rule hC hA hz' hok)) (he _))) (fun s => ?_))
  refine hA 247 s _ _ _ ?_
  show (newListElements [] (itemStart e :: (e.more.map (fun l => Any.raw l.text) ++ es.flatMap values))).map (Any.group listLabel []) = _
  have := collect (e :: es) []
  rw [List.flatMap_cons, values, List.cons_append] at this
  rw [this]
  rfl

end C64
end Verif
