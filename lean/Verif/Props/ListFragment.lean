import Verif.Props.ListLines

/-!
# C64, continued — A list is one fragment of the document
-/
namespace Verif
namespace C64
open Peg Grammar Actions FragmentLoop Listed
open C59 (Code Cut alnum)
open Paragraphs (Line)
open Walk (Any)

variable {σ : Type} {S : Sem σ} {A : Peg.Code σ} {t r u x z : Text}

/-- The rules tried before those for lists. -/
def earlier : List Nat := [R.BlockAttributes, R.ImageBlock, R.UserMacroBlock, R.ShortcutParagraph, R.AttributeDeclaration, R.AttributeReset, R.DocumentHeader, R.Section,
  R.DelimitedBlock, R.ThematicBreak]

/-- The marks of one digit or letter. -/
def shorts : List Text := ("0123456789".toList ++ "abcdefghijklmnopqrstuvwxyz".toList ++ "ABCDEFGHIJKLMNOPQRSTUVWXYZ".toList).map (fun c => [c, '.', ' ']) ++
  ("ivxdlcm".toList ++ "IVXDLCM".toList).map (fun c => [c, ')', ' '])

/-- What none of these rules accept. -/
theorem earlier_fail : ∀ p ∈ [" ", "\t", "** ", ". ", ".. ", "... "].map String.toList ++ shorts, ∀ i ∈ earlier, runO grammar (fun _ _ => none) 80 (.rule i) p p = some [.fail] := by
  decide +kernel

theorem earlier_fail_line : ∀ p ∈ ["- ", "* ", "*** ", "**** ", "***** ", ".... ", "..... "].map String.toList, ∀ i ∈ earlier, i ≠ R.DelimitedBlock → i ≠ R.ThematicBreak →
    runO grammar (fun _ _ => none) 80 (.rule i) p p = some [.fail] := by
  decide +kernel

theorem block_fail : ∀ p ∈ ["- ", "* ", "*** "].map String.toList, runO grammar (fun _ _ => none) 80 (.rule R.DelimitedBlock) p p = some [.fail] := by
  decide +kernel

theorem break_fail : ∀ p ∈ ["**** ", "***** ", ".... ", "..... "].map String.toList, runO grammar (fun _ _ => none) 80 (.rule R.ThematicBreak) p p = some [.fail] := by
  decide +kernel

theorem lit_self : ∀ (l t : Text), matchLit l (l ++ t) = some t
  | [], _ => rfl
  | c :: l, t => by
    show (if c = c then matchLit l (l ++ t) else none) = _
    rw [if_pos rfl]
    exact lit_self l t

/-- The line of an item is no delimiter. -/
theorem never_delim {c : Char} (hc : c ≠ '\uFFFD') {k n d d' delim : Nat} (hn : k ≤ n) (hG : grammar delim = .act d (.scope (.seq (.act d' (.scope (.seq (.lit (List.replicate k c))
    (.star (.lit [c]))))) (.seq (.star (.rule R.Space)) (.rule R.EOL))))) {w y : Text} {b : Char} (hb : isBlank c = false) (hne : w ≠ []) (hw : ∀ c ∈ w, isBlank c = true) (h1 : isBlank b = false)
    (h2 : isEol b = false) : Never grammar S (.rule delim) (List.replicate n c ++ (w ++ b :: y)) := by
  obtain ⟨m, rfl⟩ : ∃ m, n = k + m := ⟨n - k, by omega⟩
  refine yields_rule ?_
  rw [hG]
  refine yields_act (yields_scope (yields_seq (u := w ++ b :: y) (yields_act (yields_scope (yields_seq (u := List.replicate m c ++ (w ++ b :: y)) (yields_lit.to ?_)
    ((C49.yields_star_lit hc _).to ?_)))) (yields_seq (u := b :: y) (yields_spaces.to ?_) (C63.never_EOL h2))))
  · rw [← List.replicate_append_replicate, List.append_assoc]
    exact lit_self _ _
  · rw [List.dropWhile_append_of_pos (fun x hx => by simpa using (List.mem_replicate.mp hx).2)]
    cases w with
    | nil => exact absurd rfl hne
    | cons d w =>
      rw [List.cons_append, List.dropWhile_cons_of_neg]
      intro h
      have := hw d List.mem_cons_self
      rw [show d = c from by simpa using h, hb] at this
      cases this
  · rw [List.dropWhile_append_of_pos hw, List.dropWhile_cons_of_neg (by rw [h1]; decide)]

/-- The text of an item, after the mark. -/
theorem entry_split {alnum : Char → Bool} {e : Entry} (h : e.Ok alnum) (z : Text) : ∃ w b y, e.line ++ z = e.indent ++ (e.mark.text ++ (' ' :: w ++ b :: y)) ∧ (∀ c ∈ w, isBlank c = true) ∧
    isBlank b = false ∧ isEol b = false ∧ b ≠ '*' ∧ b ≠ '-' := by
  obtain ⟨w, hg, hw⟩ := h.gap
  obtain ⟨b, y, hb, hs, hn⟩ := h.first
  refine ⟨w, b, y ++ e.first.trail ++ z, ?_, hw, ?_, ?_, ?_, ?_⟩
  · simp [Entry.line, hg, Line.full, hb]
  · exact (entry_first (x := z) h b (by simp [Line.full, hb])).1
  · exact h.one.one b (by simp [Line.full, hb])
  · rintro rfl; exact hn (by decide)
  · rintro rfl; exact hn (by decide)

theorem third {w y : Text} {b : Char} (hw : ∀ c ∈ w, isBlank c = true) (hs : b ≠ '*') (hd : b ≠ '-') : ∃ d q, w ++ b :: y = d :: q ∧ d ≠ '*' ∧ d ≠ '-' := by
  cases w with
  | nil => exact ⟨b, y, rfl, hs, hd⟩
  | cons c w =>
    refine ⟨c, _, rfl, ?_⟩
    have := hw c List.mem_cons_self
    constructor <;> (rintro rfl; cases this)

theorem no_lit {l : Text} (h : matchLit l t = none) : Never grammar S (.lit l) t := yields_lit.to h

theorem lit_head {c d : Char} {l : Text} (h : c ≠ d) : matchLit (c :: l) (d :: t) = none := by
  unfold matchLit
  rw [if_neg h]

theorem lit_cons {c : Char} {l : Text} : matchLit (c :: l) (c :: t) = matchLit l t := by
  conv => lhs; unfold matchLit
  rw [if_pos rfl]

/-- An item is no thematic break. -/
theorem break_dash {d : Char} (h : d ≠ '-') : Never grammar S (.rule R.ThematicBreak) ('-' :: ' ' :: d :: t) := by
  refine yields_rule (yields_act (yields_scope (never_seq ?_)))
  refine yields_alt_right (no_lit (lit_head (by decide))) (yields_alt_right (no_lit (lit_head (by decide))) (yields_alt_right (no_lit (lit_head (by decide)))
    (yields_alt_right (no_lit ?_) (yields_alt_right (no_lit ?_) (yields_alt_right (no_lit (lit_head (by decide))) (no_lit (lit_head (by decide))))))))
  · rw [lit_cons]; exact lit_head (by decide)
  · rw [lit_cons, lit_cons]; exact lit_head h.symm

theorem break_star {d : Char} (h : d ≠ '*') : Never grammar S (.rule R.ThematicBreak) ('*' :: ' ' :: d :: t) := by
  refine yields_rule (yields_act (yields_scope (never_seq ?_)))
  refine yields_alt_right (no_lit (lit_head (by decide))) (yields_alt_right (no_lit ?_) (yields_alt_right (no_lit ?_)
    (yields_alt_right (no_lit (lit_head (by decide))) (yields_alt_right (no_lit (lit_head (by decide))) (yields_alt_right (no_lit (lit_head (by decide))) (no_lit (lit_head (by decide))))))))
  · rw [lit_cons]; exact lit_head (by decide)
  · rw [lit_cons, lit_cons]; exact lit_head h.symm

theorem break_stars {w y : Text} {b : Char} (hw : ∀ c ∈ w, isBlank c = true) (h1 : isBlank b = false) (h2 : isEol b = false) :
    Never grammar S (.rule R.ThematicBreak) ('*' :: '*' :: '*' :: ' ' :: w ++ b :: y) := by
  refine yields_rule (yields_act (yields_scope (yields_seq (u := ' ' :: w ++ b :: y) (yields_alt_right (no_lit (lit_head (by decide))) (yields_alt_left (yields_lit.to (lit_self ['*', '*', '*'] _))))
    (yields_seq (u := b :: y) (yields_spaces.to ?_) (never_seq (C63.never_EOL h2))))))
  rw [List.dropWhile_append_of_pos (fun c hc => by
    rcases List.mem_cons.mp hc with rfl | hc
    · rfl
    · exact hw c hc), List.dropWhile_cons_of_neg (by rw [h1]; decide)]

/-- An item is no delimited block. -/
theorem block_marks {c : Char} (hc : c = '*' ∨ c = '.') {n : Nat} (hn : 4 ≤ n) {w y : Text} {b : Char} (hw : ∀ c ∈ w, isBlank c = true) (h1 : isBlank b = false) (h2 : isEol b = false) :
    Never grammar S (.rule R.DelimitedBlock) (List.replicate n c ++ (' ' :: w ++ b :: y)) := by
  have hw' : ∀ c ∈ ' ' :: w, isBlank c = true := fun c hc => by
    rcases List.mem_cons.mp hc with rfl | hc
    · rfl
    · exact hw c hc
  have hside : c = '*' → Never grammar S (.rule R.SidebarBlockDelimiter) (List.replicate n c ++ (' ' :: w ++ b :: y)) := by
    rintro rfl
    exact never_delim (by decide) hn C49.sidebar_rules.hdelim rfl (by simp) hw' h1 h2
  have hlit : c = '.' → Never grammar S (.rule R.LiteralBlockDelimiter) (List.replicate n c ++ (' ' :: w ++ b :: y)) := by
    rintro rfl
    exact never_delim (by decide) hn C49.literal_rules.hdelim rfl (by simp) hw' h1 h2
  obtain ⟨m, rfl⟩ : ∃ m, n = m + 1 := ⟨n - 1, by omega⟩
  rw [List.replicate_succ, List.cons_append] at hside hlit ⊢
  have st : ∀ (F : List Char) (e : Exp), c ∉ F → starts grammar F 24 e = true → Never grammar S e (c :: (List.replicate m c ++ (' ' :: w ++ b :: y))) :=
    fun F e h1 h2 => starts_never h1 24 e h2
  rcases hc with rfl | rfl
  · refine yields_rule ?_
    refine yields_alt_right (st ['/'] _ (by decide) (by decide)) ?_
    refine yields_alt_right (st ['='] _ (by decide) (by decide)) ?_
    refine yields_alt_right (st ['`'] _ (by decide) (by decide)) ?_
    refine yields_alt_right (st ['`'] _ (by decide) (by decide)) ?_
    refine yields_alt_right (st ['-'] _ (by decide) (by decide)) ?_
    refine yields_alt_right (st ['.'] _ (by decide) (by decide)) ?_
    refine yields_alt_right (st ['>'] _ (by decide) (by decide)) ?_
    refine yields_alt_right (st ['-'] _ (by decide) (by decide)) ?_
    refine yields_alt_right (st ['+'] _ (by decide) (by decide)) ?_
    refine yields_alt_right (st ['_'] _ (by decide) (by decide)) ?_
    exact yields_rule (yields_act (yields_scope (never_seq (yields_rule (hside rfl)))))
  · refine yields_rule ?_
    refine yields_alt_right (st ['/'] _ (by decide) (by decide)) ?_
    refine yields_alt_right (st ['='] _ (by decide) (by decide)) ?_
    refine yields_alt_right (st ['`'] _ (by decide) (by decide)) ?_
    refine yields_alt_right (st ['`'] _ (by decide) (by decide)) ?_
    refine yields_alt_right (st ['-'] _ (by decide) (by decide)) ?_
    refine yields_alt_right (yields_rule (yields_act (yields_scope (never_seq (yields_rule (hlit rfl)))))) ?_
    refine yields_alt_right (st ['>'] _ (by decide) (by decide)) ?_
    refine yields_alt_right (st ['-'] _ (by decide) (by decide)) ?_
    refine yields_alt_right (st ['+'] _ (by decide) (by decide)) ?_
    refine yields_alt_right (st ['_'] _ (by decide) (by decide)) ?_
    exact st ['*'] _ (by decide) (by decide)

theorem earlier_line (hS : Code S) {p : Text} (hp : p ∈ ["- ", "* ", "*** ", "**** ", "***** ", ".... ", "..... "].map String.toList)
    (hb : Never grammar S (.rule R.DelimitedBlock) (p ++ x)) (ht : Never grammar S (.rule R.ThematicBreak) (p ++ x)) : ∀ i ∈ earlier, Never grammar S (.rule i) (p ++ x) := by
  intro i hi
  by_cases h1 : i = R.DelimitedBlock
  · rw [h1]; exact hb
  by_cases h2 : i = R.ThematicBreak
  · rw [h2]; exact ht
  exact never_of_prefix (C62.follows hS) x (earlier_fail_line p hp i hi h1 h2)

theorem mem_range {a b c : Char} (l : Text) (hl : l = (List.range (b.toNat + 1 - a.toNat)).map (fun i => Char.ofNat (a.toNat + i))) (h : a ≤ c ∧ c ≤ b) : c ∈ l := by
  rw [hl, List.mem_map]
  have h1 : a.toNat ≤ c.toNat := h.1
  have h2 : c.toNat ≤ b.toNat := h.2
  refine ⟨c.toNat - a.toNat, List.mem_range.mpr (by omega), ?_⟩
  rw [Nat.add_sub_cancel' h1]
  exact Char.ofNat_toNat c

/-- The first line of a list is taken by no rule but the one for lists. -/
theorem list_never (hS : Code S) {e : Entry} (h : e.Ok (alnum S)) (hs : e.mark.Short) : ∀ i ∈ earlier, Never grammar S (.rule i) (e.line ++ z) := by
  obtain ⟨w, b, y, he, hw, h1, h2, h3, h4⟩ := entry_split h z
  rw [he]
  have pre : ∀ p ∈ [" ", "\t", "** ", ". ", ".. ", "... "].map String.toList ++ shorts, ∀ x, ∀ i ∈ earlier, Never grammar S (.rule i) (p ++ x) := fun p hp x i hi =>
    never_of_prefix (C62.follows hS) x (earlier_fail p hp i hi)
  cases hi : e.indent with
  | cons c q =>
    have hc := h.indent c (by rw [hi]; exact List.mem_cons_self)
    simp only [isBlank, Bool.or_eq_true, beq_iff_eq] at hc
    rcases hc with rfl | rfl
    · exact pre ['\t'] (by decide) _
    · exact pre [' '] (by decide) _
  | nil =>
    rw [List.nil_append]
    have hm := h.mark
    cases hk : e.mark with
    | dash =>
      obtain ⟨d, q, e1, d1, d2⟩ := third (y := y) hw h3 h4
      show ∀ i ∈ earlier, Never grammar S (.rule i) (['-', ' '] ++ (w ++ b :: y))
      rw [e1]
      exact earlier_line hS (by decide) (never_of_prefix (C62.follows hS) _ (block_fail ['-', ' '] (by decide))) (break_dash d2)
    | stars n =>
      rw [hk] at hm
      obtain ⟨m1, m2⟩ := hm
      have : n = 1 ∨ n = 2 ∨ n = 3 ∨ n = 4 ∨ n = 5 := by omega
      rcases this with rfl | rfl | rfl | rfl | rfl
      · obtain ⟨d, q, e1, d1, d2⟩ := third (y := y) hw h3 h4
        show ∀ i ∈ earlier, Never grammar S (.rule i) (['*', ' '] ++ (w ++ b :: y))
        rw [e1]
        exact earlier_line hS (by decide) (never_of_prefix (C62.follows hS) _ (block_fail ['*', ' '] (by decide))) (break_star d1)
      · exact pre ['*', '*', ' '] (by decide) _
      · exact earlier_line (p := ['*', '*', '*', ' ']) hS (by decide) (never_of_prefix (C62.follows hS) _ (block_fail ['*', '*', '*', ' '] (by decide))) (break_stars hw h1 h2)
      · exact earlier_line (p := ['*', '*', '*', '*', ' ']) hS (by decide) (block_marks (c := '*') (n := 4) (.inl rfl) (by decide) hw h1 h2)
          (never_of_prefix (C62.follows hS) _ (break_fail ['*', '*', '*', '*', ' '] (by decide)))
      · exact earlier_line (p := ['*', '*', '*', '*', '*', ' ']) hS (by decide) (block_marks (c := '*') (n := 5) (.inl rfl) (by decide) hw h1 h2)
          (never_of_prefix (C62.follows hS) _ (break_fail ['*', '*', '*', '*', '*', ' '] (by decide)))
    | dots n =>
      rw [hk] at hm
      obtain ⟨m1, m2⟩ := hm
      have : n = 1 ∨ n = 2 ∨ n = 3 ∨ n = 4 ∨ n = 5 := by omega
      rcases this with rfl | rfl | rfl | rfl | rfl
      · exact pre ['.', ' '] (by decide) _
      · exact pre ['.', '.', ' '] (by decide) _
      · exact pre ['.', '.', '.', ' '] (by decide) _
      · exact earlier_line (p := ['.', '.', '.', '.', ' ']) hS (by decide) (block_marks (c := '.') (n := 4) (.inr rfl) (by decide) hw h1 h2)
          (never_of_prefix (C62.follows hS) _ (break_fail ['.', '.', '.', '.', ' '] (by decide)))
      · exact earlier_line (p := ['.', '.', '.', '.', '.', ' ']) hS (by decide) (block_marks (c := '.') (n := 5) (.inr rfl) (by decide) hw h1 h2)
          (never_of_prefix (C62.follows hS) _ (break_fail ['.', '.', '.', '.', '.', ' '] (by decide)))
    | number ds =>
      rw [hk] at hm hs
      obtain ⟨c, rfl⟩ := List.length_eq_one_iff.mp hs
      refine pre [c, '.', ' '] ?_ _
      have := mem_range "0123456789".toList (by decide) (hm.2 c List.mem_cons_self)
      exact List.mem_append_right _ (List.mem_append_left _ (List.mem_map.mpr ⟨c, List.mem_append_left _ (List.mem_append_left _ this), rfl⟩))
    | letter c =>
      rw [hk] at hm
      refine pre [c, '.', ' '] ?_ _
      have := mem_range "abcdefghijklmnopqrstuvwxyz".toList (by decide) hm
      exact List.mem_append_right _ (List.mem_append_left _ (List.mem_map.mpr ⟨c, List.mem_append_left _ (List.mem_append_right _ this), rfl⟩))
    | capital c =>
      rw [hk] at hm
      refine pre [c, '.', ' '] ?_ _
      have := mem_range "ABCDEFGHIJKLMNOPQRSTUVWXYZ".toList (by decide) hm
      exact List.mem_append_right _ (List.mem_append_left _ (List.mem_map.mpr ⟨c, List.mem_append_right _ this, rfl⟩))
    | roman ds =>
      rw [hk] at hm hs
      obtain ⟨c, rfl⟩ := List.length_eq_one_iff.mp hs
      refine pre [c, ')', ' '] ?_ _
      exact List.mem_append_right _ (List.mem_append_right _ (List.mem_map.mpr ⟨c, List.mem_append_left _ (hm.2 c List.mem_cons_self), rfl⟩))
    | capRoman ds =>
      rw [hk] at hm hs
      obtain ⟨c, rfl⟩ := List.length_eq_one_iff.mp hs
      refine pre [c, ')', ' '] ?_ _
      exact List.mem_append_right _ (List.mem_append_right _ (List.mem_map.mpr ⟨c, List.mem_append_right _ (hm.2 c List.mem_cons_self), rfl⟩))

/-- A list is a fragment. -/
theorem list_fragment (hS : Code S) (hC : ListCode S) (hA : Obeys A) (hz : Cut z r) (hr : Never grammar S (.rule R.ExtraListElement) r) {e : Entry} {es : List Entry}
    (h : ∀ e' ∈ e :: es, e'.Ok (alnum S)) (hsk : e.skipped = []) (hs : e.mark.Short) {st : Text} :
    Exactly grammar S A st (.rule R.DocumentFragment) (tail z r ((e :: es).flatMap Entry.lines)) [listEl (e :: es)] r := by
  have hl := fun st => list_rule (st := st) hS hC hA hz hr h hsk
  have hok := h e List.mem_cons_self
  obtain ⟨z', hz', e1, _⟩ := tail_cons hz e.line (e.more.map Line.full ++ es.flatMap Entry.lines)
  have et : tail z r ((e :: es).flatMap Entry.lines) = e.line ++ z' := by
    rw [List.flatMap_cons, Entry.lines, hsk, List.nil_append, List.cons_append, e1]
  have hlen : ∀ ls, r.length ≤ (tail z r ls).length := by
    intro ls
    cases ls with
    | nil => exact Nat.le_refl _
    | cons l ls =>
      show r.length ≤ (joinLF (l :: ls) ++ z).length
      rw [List.length_append]
      have : r.length ≤ z.length := by cases hz <;> simp
      omega
  have hlt : r.length < (e.line ++ z').length := by
    have h1 := hlen (e.more.map Line.full ++ es.flatMap Entry.lines)
    have h2 : (tail z r (e.more.map Line.full ++ es.flatMap Entry.lines)).length ≤ z'.length := by
      generalize tail z r (e.more.map Line.full ++ es.flatMap Entry.lines) = q at hz'
      cases hz' <;> simp
    have h3 : 0 < e.line.length := by
      obtain ⟨c, y, e2, _⟩ := mark_head hok.mark
      simp [Entry.line, e2]
      omega
    rw [List.length_append]
    omega
  rw [et] at hl ⊢
  have hnev := list_never (z := z') hS hok hs
  have hbl := never_blankLine (S := S) (entry_solid (x := z') hok)
  generalize e.line ++ z' = t at *
  cases t with
  | nil => exact absurd hlt (by simp)
  | cons c t =>
    refine C59.fragment hA hS (hnev _ (by decide)) hlt (fun st => ?_)
    exact exactly_alt_right (hnev _ (by decide)) (exactly_alt_right (hnev _ (by decide)) (exactly_alt_right (hnev _ (by decide)) (exactly_alt_right (hnev _ (by decide))
      (exactly_alt_right (hnev _ (by decide)) (exactly_alt_right hbl (exactly_alt_right (hnev _ (by decide)) (exactly_alt_right (hnev _ (by decide)) (exactly_alt_right (hnev _ (by decide))
      (exactly_alt_right (hnev _ (by decide)) (exactly_alt_left (hl st)))))))))))

end C64
end Verif
