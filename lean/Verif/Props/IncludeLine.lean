import Verif.Spec.Included

/-!
# C72 — The line that includes a file
-/
namespace Verif
namespace C72
open Peg Grammar Included
open C50 (never_lit_head never_reference never_pred_seq Blanks NoEol RawCode read)

section
variable {σ : Type} {S : Sem σ}

/-- The characters of names of files that are taken together. -/
def inName (c : Char) : Bool := !['\r', '\n', '[', ']', '\ufffd', '{', ',', ';', '?', '!', '.', '<', '>', ' '].contains c

/-- The characters that can not be in a path. -/
def notInPath : List Char := ['\r', '\n', '[', ']', '\ufffd', '{', '<', '>', ' ', '\t']

theorem has_name (c : Char) : (⟨true, ['\r', '\n', '[', ']', '\ufffd', '{', ',', ';', '?', '!', '.', '<', '>', ' '], [], false, false⟩ : Cls).has S.letter S.number c = inName c := by
  simp [Cls.has, inName]

/-- A part of the name of a file (parser.peg:2824-2833). -/
def namePart : Exp :=
  .alt (.act 451 (.scope (.seq (.notP (.lit ['['])) (.plus (.cls ⟨true, ['\r', '\n', '[',
    ']', '\ufffd', '{', ',', ';', '?', '!', '.', '<', '>', ' '], [], false, false⟩))))) (.alt (.scope (.seq
    (.cls ⟨false, [',', ';', '?', '!', '.'], [], false, false⟩) (.andP (.scope (.seq (.notP (.rule R.Space))
    (.notP (.rule R.EOF))))))) (.alt (.rule R.AttributeReference) (.alt (.rule R.ElementPlaceHolder) (.act
    452 (.lit ['{'])))))

theorem never_name (r : Text) : Never grammar S namePart ('[' :: r) := by
  refine yields_alt_right (yields_act (yields_scope (never_seq (never_notP (Yields.sure (u := r) (yields_lit.to rfl)))))) ?_
  refine yields_alt_right (yields_scope (never_seq (yields_cls_no rfl))) ?_
  refine yields_alt_right (never_reference (by decide)) ?_
  refine yields_alt_right ?_ (yields_act (never_lit_head (by decide) (by decide)))
  exact yields_rule (yields_act (yields_scope (never_seq (yields_rule (yields_lit.to rfl)))))

theorem drop_name (r : Text) : ∀ p : Text, (p ++ '[' :: r).dropWhile inName = p.dropWhile inName ++ '[' :: r
  | [] => rfl
  | c :: p => by
    show (c :: (p ++ '[' :: r)).dropWhile inName = _
    cases h : inName c with
    | true => rw [List.dropWhile_cons_of_pos h, List.dropWhile_cons_of_pos h]; exact drop_name r p
    | false => rw [List.dropWhile_cons_of_neg (by simp [h]), List.dropWhile_cons_of_neg (by simp [h])]; rfl

theorem yields_part {c : Char} {p : Text} (r : Text) (h : ∀ x ∈ c :: p, x ∉ notInPath) :
    ∃ q, q.length ≤ p.length ∧ (∀ x ∈ q, x ∈ p) ∧ Yields grammar S namePart (c :: p ++ '[' :: r) (some (q ++ '[' :: r)) := by
  cases hc : inName c with
  | true =>
    refine ⟨p.dropWhile inName, (List.dropWhile_sublist inName).length_le, fun x hx => (List.dropWhile_sublist inName).subset hx, ?_⟩
    refine yields_alt_left (yields_act (yields_scope (yields_seq (yields_notP (never_lit_head (by decide) ?_)) ?_)))
    · rintro rfl; revert hc; decide
    · have hy := C50.yields_plus_cls (S := S) inName has_name (c :: p ++ '[' :: r)
      rw [if_neg (by show (c :: (p ++ '[' :: r)).takeWhile inName ≠ []; rw [List.takeWhile_cons_of_pos hc]; simp)] at hy
      rw [show (c :: p ++ '[' :: r).dropWhile inName = p.dropWhile inName ++ '[' :: r by
        rw [drop_name, List.dropWhile_cons_of_pos hc]] at hy
      exact hy
  | false =>
    refine ⟨p, Nat.le_refl _, fun _ h => h, ?_⟩
    have hcm := h c (by simp)
    have hm : c ∈ [',', ';', '?', '!', '.'] := by
      unfold inName at hc
      rw [Bool.not_eq_false', List.contains_iff_mem] at hc
      simp only [notInPath, List.mem_cons, List.not_mem_nil, or_false] at hc hcm ⊢
      tauto
    have hx : ∃ d t, p ++ '[' :: r = d :: t ∧ isBlank d = false := by
      cases p with
      | nil => exact ⟨'[', r, rfl, by decide⟩
      | cons d p =>
        refine ⟨d, _, rfl, ?_⟩
        have hd := h d (by simp)
        simp only [notInPath, List.mem_cons, List.not_mem_nil, or_false, not_or] at hd
        unfold isBlank
        simp [hd]
    obtain ⟨d, t, e, hd⟩ := hx
    show Yields grammar S namePart (c :: (p ++ '[' :: r)) _
    refine yields_alt_right (yields_act (yields_scope ?_)) (yields_alt_left (yields_scope (yields_seq (u := p ++ '[' :: r) (yields_cls ?_) ?_)))
    · refine yields_seq (yields_notP (never_lit_head (by decide) ?_)) (never_plus (yields_cls_no ?_))
      · rintro rfl; exact absurd hm (by decide)
      · rw [has_name]; exact hc
    · simp only [List.mem_cons, List.not_mem_nil, or_false] at hm
      rcases hm with rfl | rfl | rfl | rfl | rfl <;> rfl
    · rw [e]
      refine yields_andP (Yields.sure (u := d :: t) (yields_scope (yields_seq (yields_notP (never_Space hd)) (yields_notP never_EOF))))

theorem star_name (r : Text) : ∀ (n : Nat) (p : Text), p.length ≤ n → (∀ x ∈ p, x ∉ notInPath) → Yields grammar S (.star namePart) (p ++ '[' :: r) (some ('[' :: r))
  | _, [], _, _ => yields_star_stop (never_name r)
  | 0, _ :: _, h, _ => by simp at h
  | n + 1, c :: p, h, hp => by
    obtain ⟨q, hq, hm, hy⟩ := yields_part (S := S) r hp
    exact yields_star_step hy (star_name r n q (by simp at h; omega) (fun x hx => hp x (by simp [hm x hx])))

/-- The path. -/
theorem yields_path {p : Text} (h0 : p ≠ []) (hp : ∀ x ∈ p, x ∉ notInPath) (r : Text) : Yields grammar S (.rule R.FileLocation) (p ++ '[' :: r) (some ('[' :: r)) := by
  cases p with
  | nil => exact absurd rfl h0
  | cons c p =>
    obtain ⟨q, hq, hm, hy⟩ := yields_part (S := S) r hp
    exact yields_rule (yields_act (yields_rule (yields_act (yields_plus_step hy (star_name r _ q (Nat.le_refl _) (fun x hx => hp x (by simp [hm x hx])))))))

/-! ### The attributes -/

/-- The characters of values without quotes that are taken together. -/
def inValue (c : Char) : Bool := !['=', ',', ']', '{', ' '].contains c

theorem has_value (c : Char) : (⟨true, ['=', ',', ']', '{', ' '], [], false, false⟩ : Cls).has S.letter S.number c = inValue c := by
  simp [Cls.has, inValue]

def inKey (c : Char) : Bool := !['\r', '\n', '=', ',', ']'].contains c

theorem has_key (c : Char) : (⟨true, ['\r', '\n', '=', ',', ']'], [], false, false⟩ : Cls).has S.letter S.number c = inKey c := by
  simp [Cls.has, inKey]

/-- Names and values without special characters. -/
def Word (w : Text) : Prop := w ≠ [] ∧ ∀ c ∈ w, c ∉ ['=', ',', ']', '[', '{', ' ', '\t', '\r', '\n', '\'', '"', '\\']

theorem cut {f : Char → Bool} {w : Text} (hw : ∀ c ∈ w, f c = true) {d : Char} (hd : f d = false) (r : Text) :
    (w ++ d :: r).takeWhile f = w ∧ (w ++ d :: r).dropWhile f = d :: r := by
  rw [List.takeWhile_append_of_pos hw, List.dropWhile_append_of_pos hw, List.takeWhile_cons_of_neg (by simp [hd]), List.dropWhile_cons_of_neg (by simp [hd])]
  simp

/-- A value without quotes, up to `=`, `]` or `,`. -/
theorem yields_unquoted {w : Text} (h : Word w) {d : Char} (hd : d = '=' ∨ d = ']' ∨ d = ',') (r : Text) :
    Yields grammar S (.alt (.rule R.SingleQuotedAttributeValue) (.alt (.rule R.DoubleQuotedAttributeValue) (.rule R.UnquotedAttributeValue))) (w ++ d :: r) (some (d :: r)) := by
  obtain ⟨h0, hw⟩ := h
  cases w with
  | nil => exact absurd rfl h0
  | cons c w =>
    have hc := hw c (by simp)
    simp only [List.mem_cons, List.not_mem_nil, or_false, not_or] at hc
    have hv : ∀ x ∈ c :: w, inValue x = true := by
      intro x hx
      have := hw x hx
      simp only [List.mem_cons, List.not_mem_nil, or_false, not_or] at this
      unfold inValue
      simp [this]
    have hdv : inValue d = false := by rcases hd with rfl | rfl | rfl <;> rfl
    have hsp : isBlank c = false := by unfold isBlank; simp [hc]
    have hds : isBlank d = false := by rcases hd with rfl | rfl | rfl <;> rfl
    have stop : Never grammar S (.alt (.scope (.seq (.lit ['[']) (.seq (.rule R.UnquotedAttributeValue)
        (.lit [']'])))) (.alt (.rule R.AttributeReference) (.alt (.lit ['{']) (.alt (.rule R.Space) (.act 100
        (.plus (.cls ⟨true, ['=', ',', ']', '{', ' '], [], false, false⟩))))))) (d :: r) := by
      refine yields_alt_right (yields_scope (never_seq (never_lit_head (by decide) (by rcases hd with rfl | rfl | rfl <;> decide)))) ?_
      refine yields_alt_right (never_reference (by rcases hd with rfl | rfl | rfl <;> decide)) ?_
      refine yields_alt_right (never_lit_head (by decide) (by rcases hd with rfl | rfl | rfl <;> decide)) ?_
      refine yields_alt_right (never_Space hds) (yields_act (never_plus (yields_cls_no ?_)))
      rw [has_value]; exact hdv
    refine yields_alt_right ?_ (yields_alt_right ?_ ?_)
    · exact yields_rule (yields_act (yields_scope (never_seq (never_lit_head (by decide) (by tauto)))))
    · exact yields_rule (yields_act (yields_scope (never_seq (never_lit_head (by decide) (by tauto)))))
    · refine yields_rule (yields_act (yields_scope (yields_seq (yields_notP (never_Space hsp)) (yields_plus_step (u := d :: r) ?_ (yields_star_stop stop)))))
      refine yields_alt_right (yields_scope (never_seq (never_lit_head (by decide) hc.2.2.2.1))) ?_
      refine yields_alt_right (never_reference ⟨hc.2.2.2.2.2.2.2.2.2.2.2, hc.2.2.2.2.1⟩) ?_
      refine yields_alt_right (never_lit_head (by decide) hc.2.2.2.2.1) ?_
      refine yields_alt_right (never_Space hsp) (yields_act ?_)
      have hy := C50.yields_plus_cls (S := S) inValue has_value (c :: w ++ d :: r)
      rw [(cut hv hdv r).1, (cut hv hdv r).2, if_neg (by simp)] at hy
      exact hy


theorem not_equal {d : Char} (hd : isBlank d = false) (he : d ≠ '=') (r : Text) : Never grammar S (.scope (.seq (.star (.rule R.Space)) (.lit ['=']))) (d :: r) := by
  refine yields_scope (yields_seq (u := d :: r) ?_ (never_lit_head (by decide) he))
  have := yields_spaces (S := S) (t := d :: r)
  rwa [List.dropWhile_cons_of_neg (by simp [hd])] at this

theorem spaces_none {d : Char} (hd : isBlank d = false) (r : Text) : Yields grammar S (.star (.rule R.Space)) (d :: r) (some (d :: r)) := by
  have := yields_spaces (S := S) (t := d :: r)
  rwa [List.dropWhile_cons_of_neg (by simp [hd])] at this

/-- What can be written between double quotes. -/
def Quotable (v : Text) : Prop := v ≠ [] ∧ ∀ c ∈ v, c ∉ ['=', ']', '[', '{', ' ', '\t', '\r', '\n', '\'', '"', '\\', '`']

def inQuotes (c : Char) : Bool := !['\r', '\n', '\\', '"', '`', ' '].contains c

theorem has_quotes (c : Char) : (⟨true, ['\r', '\n', '\\', '"', '`', ' '], [], false, false⟩ : Cls).has S.letter S.number c = inQuotes c := by
  simp [Cls.has, inQuotes]

/-- A part of a value between double quotes (parser.peg:596-614). -/
def quotedPart : Exp :=
  .alt (.rule R.Alphanums) (.alt (.rule R.Space) (.alt (.rule R.QuotationMark) (.alt (.rule
    R.AttributeReference) (.alt (.act 96 (.lit ['\\', '"'])) (.alt (.alt (.lit ['"', '`']) (.alt (.lit ['`',
    '"']) (.alt (.lit ['\\']) (.act 97 (.lit ['`']))))) (.act 98 (.plus (.cls ⟨true, ['\r', '\n', '\\', '"',
    '`', ' '], [], false, false⟩))))))))

theorem never_mark {c : Char} (h : c ≠ '`' ∧ c ≠ '"' ∧ c ≠ '\'') (r : Text) : Never grammar S (.rule R.QuotationMark) (c :: r) :=
  yields_rule (yields_alt_right (yields_act (yields_scope (never_seq (never_lit_head (by decide) (by tauto)))))
    (yields_alt_right (yields_act (yields_scope (never_seq (never_lit_head (by decide) (by tauto)))))
    (yields_alt_right (yields_act (yields_scope (never_seq (never_lit_head (by decide) (by tauto)))))
      (yields_act (yields_scope (never_seq (never_lit_head (by decide) (by tauto))))))))

theorem has_alnum (c : Char) : (⟨false, [], [], true, true⟩ : Cls).has S.letter S.number c = C50.alnum S c := by
  simp [Cls.has, C50.alnum]

theorem drop_before {f : Char → Bool} {d : Char} (hd : f d = false) (r : Text) : ∀ p : Text, (p ++ d :: r).dropWhile f = p.dropWhile f ++ d :: r
  | [] => by rw [List.nil_append, List.dropWhile_cons_of_neg (by simp [hd])]; rfl
  | c :: p => by
    show (c :: (p ++ d :: r)).dropWhile f = _
    cases h : f c with
    | true => rw [List.dropWhile_cons_of_pos h, List.dropWhile_cons_of_pos h]; exact drop_before hd r p
    | false => rw [List.dropWhile_cons_of_neg (by simp [h]), List.dropWhile_cons_of_neg (by simp [h])]; rfl

theorem never_alnum {c : Char} (h : C50.alnum S c = false) (r : Text) : Never grammar S (.rule R.Alphanums) (c :: r) :=
  yields_rule (yields_act (never_plus (yields_cls_no (by rw [has_alnum]; exact h))))

/-- Not at the end of the value. -/
theorem never_quoted (hq : C50.alnum S '"' = false) {d : Char} (hd : d ≠ '`') (r : Text) : Never grammar S quotedPart ('"' :: d :: r) := by
  have n2 : Never grammar S (.lit ['"', '`']) ('"' :: d :: r) := by
    refine (C50.yields_pLit (S := S) (by decide) ('"' :: d :: r)).to ?_
    simp [Ifeval.pLit, Ne.symm hd]
  refine yields_alt_right (never_alnum hq _) (yields_alt_right (never_Space (by decide)) (yields_alt_right ?_ (yields_alt_right (never_reference (by decide)) ?_)))
  · exact yields_rule (yields_alt_right (yields_act (yields_scope (never_seq (never_lit_head (by decide) (by decide)))))
      (yields_alt_right (yields_act (yields_scope (never_seq n2)))
      (yields_alt_right (yields_act (yields_scope (never_seq (never_lit_head (by decide) (by decide)))))
        (yields_act (yields_scope (never_seq (never_lit_head (by decide) (by decide))))))))
  · refine yields_alt_right (yields_act (never_lit_head (by decide) (by decide))) (yields_alt_right (yields_alt_right n2 (yields_alt_right (never_lit_head (by decide) (by decide))
      (yields_alt_right (never_lit_head (by decide) (by decide)) (yields_act (never_lit_head (by decide) (by decide)))))) (yields_act (never_plus (yields_cls_no ?_))))
    rw [has_quotes]; rfl

theorem quoted_part (hq : C50.alnum S '"' = false) {c : Char} {v : Text} (h : ∀ x ∈ c :: v, x ∉ ['=', ']', '[', '{', ' ', '\t', '\r', '\n', '\'', '"', '\\', '`']) (r : Text) :
    ∃ q, q.length ≤ v.length ∧ (∀ x ∈ q, x ∈ v) ∧ Yields grammar S quotedPart (c :: v ++ '"' :: r) (some (q ++ '"' :: r)) := by
  have hc := h c (by simp)
  simp only [List.mem_cons, List.not_mem_nil, or_false, not_or] at hc
  cases ha : C50.alnum S c with
  | true =>
    refine ⟨v.dropWhile (C50.alnum S), (List.dropWhile_sublist _).length_le, fun x hx => (List.dropWhile_sublist _).subset hx, yields_alt_left (yields_rule (yields_act ?_))⟩
    have hy := C50.yields_plus_cls (S := S) (C50.alnum S) has_alnum (c :: v ++ '"' :: r)
    rw [if_neg (by show (c :: (v ++ '"' :: r)).takeWhile _ ≠ []; rw [List.takeWhile_cons_of_pos ha]; simp)] at hy
    rw [show (c :: v ++ '"' :: r).dropWhile (C50.alnum S) = v.dropWhile (C50.alnum S) ++ '"' :: r by
      rw [drop_before hq, List.dropWhile_cons_of_pos ha]] at hy
    exact hy
  | false =>
    have hi : inQuotes c = true := by unfold inQuotes; simp [hc]
    refine ⟨v.dropWhile inQuotes, (List.dropWhile_sublist _).length_le, fun x hx => (List.dropWhile_sublist _).subset hx, ?_⟩
    refine yields_alt_right (never_alnum ha _) (yields_alt_right (never_Space (by unfold isBlank; simp [hc])) (yields_alt_right (never_mark (by tauto) _)
      (yields_alt_right (never_reference (by tauto)) ?_)))
    refine yields_alt_right (yields_act (never_lit_head (by decide) (by tauto))) (yields_alt_right (yields_alt_right (never_lit_head (by decide) (by tauto)) (yields_alt_right
      (never_lit_head (by decide) (by tauto)) (yields_alt_right (never_lit_head (by decide) (by tauto)) (yields_act (never_lit_head (by decide) (by tauto)))))) (yields_act ?_))
    have hy := C50.yields_plus_cls (S := S) inQuotes has_quotes (c :: v ++ '"' :: r)
    rw [if_neg (by show (c :: (v ++ '"' :: r)).takeWhile _ ≠ []; rw [List.takeWhile_cons_of_pos hi]; simp)] at hy
    rw [show (c :: v ++ '"' :: r).dropWhile inQuotes = v.dropWhile inQuotes ++ '"' :: r by
      rw [drop_before rfl, List.dropWhile_cons_of_pos hi]] at hy
    exact hy

theorem star_quoted (hq : C50.alnum S '"' = false) {d : Char} (hd : d ≠ '`') (r : Text) : ∀ (n : Nat) (v : Text), v.length ≤ n →
    (∀ x ∈ v, x ∉ ['=', ']', '[', '{', ' ', '\t', '\r', '\n', '\'', '"', '\\', '`']) → Yields grammar S (.star quotedPart) (v ++ '"' :: d :: r) (some ('"' :: d :: r))
  | _, [], _, _ => yields_star_stop (never_quoted hq hd r)
  | 0, _ :: _, h, _ => by simp at h
  | n + 1, c :: v, h, hv => by
    obtain ⟨q, hl, hm, hy⟩ := quoted_part hq hv (d :: r)
    exact yields_star_step hy (star_quoted hq hd r n q (by simp at h; omega) (fun x hx => hv x (by simp [hm x hx])))

/-- Values: a word, or characters between double quotes. -/
def Value (w : Text) : Prop := Word w ∨ ∃ v, Quotable v ∧ w = '"' :: (v ++ ['"'])

/-- A value up to the bracket or a comma. -/
theorem yields_value (hq : C50.alnum S '"' = false) {v : Text} (h : Value v) {d : Char} (hd : d = ']' ∨ d = ',') (r : Text) :
    Yields grammar S (.rule R.AttributeValue) (v ++ d :: r) (some (d :: r)) := by
  have hb : isBlank d = false := by rcases hd with rfl | rfl <;> rfl
  have he : d ≠ '=' := by rcases hd with rfl | rfl <;> decide
  have ht : d ≠ '`' := by rcases hd with rfl | rfl <;> decide
  refine yields_rule (yields_act (yields_scope (yields_seq ?_ (yields_andP (Yields.sure (u := d :: r) (yields_notP (not_equal hb he r)))))))
  rcases h with h | ⟨v, ⟨h0, hv⟩, rfl⟩
  · exact yields_unquoted h (by tauto) r
  · rw [show '"' :: (v ++ ['"']) ++ d :: r = '"' :: (v ++ '"' :: d :: r) by simp]
    cases v with
    | nil => exact absurd rfl h0
    | cons c v =>
      have hc := hv c (by simp)
      simp only [List.mem_cons, List.not_mem_nil, or_false, not_or] at hc
      obtain ⟨q, hl, hm, hy⟩ := quoted_part hq hv (d :: r)
      refine yields_alt_right ?_ (yields_alt_left ?_)
      · exact yields_rule (yields_act (yields_scope (never_seq (never_lit_head (by decide) (by decide)))))
      · refine yields_rule (yields_act (yields_scope (yields_seq (u := c :: v ++ '"' :: d :: r) (yields_lit.to rfl) (yields_seq (yields_notP ?_) (yields_seq (u := '"' :: d :: r) ?_
          (yields_seq (u := d :: r) (yields_lit.to rfl) (yields_andP (Yields.sure (u := d :: r) (yields_notP (not_equal hb he r))))))))))
        · exact never_lit_head (by decide) (by tauto)
        · exact yields_rule (yields_act (yields_plus_step hy (star_quoted hq ht r _ q (Nat.le_refl _) (fun x hx => hv x (by simp [hm x hx])))))

/-- What is before `=` is no value. -/
theorem never_value {k : Text} (h : Word k) (r : Text) : Never grammar S (.rule R.AttributeValue) (k ++ '=' :: r) := by
  refine yields_rule (yields_act (yields_scope (yields_seq (yields_unquoted h (.inl rfl) r) (never_andP (never_notP (Yields.sure (u := r) (yields_scope ?_)))))))
  exact yields_seq (spaces_none (by decide) r) (yields_lit.to rfl)

/-- `key=value` is no positional attribute. -/
theorem never_positional {k : Text} (h : Word k) (r : Text) : Never grammar S (.rule R.PositionalAttribute) (k ++ '=' :: r) := by
  refine yields_rule (yields_alt_right (yields_act (yields_scope (never_seq (never_value h r)))) (yields_act (yields_scope (never_seq ?_))))
  obtain ⟨h0, hk⟩ := h
  cases k with
  | nil => exact absurd rfl h0
  | cons c k =>
    have hc := hk c (by simp)
    simp only [List.mem_cons, List.not_mem_nil, or_false, not_or] at hc
    have hsp : isBlank c = false := by unfold isBlank; simp [hc]
    exact yields_scope (yields_seq (spaces_none hsp _) (yields_alt_right (yields_scope (never_seq (never_lit_head (by decide) hc.2.1))) (never_andP (never_lit_head (by decide) hc.2.2.1))))

theorem value_head {v : Text} (h : Value v) : ∃ c t, v = c :: t ∧ isBlank c = false := by
  rcases h with ⟨h0, hw⟩ | ⟨v, _, rfl⟩
  · cases v with
    | nil => exact absurd rfl h0
    | cons c v =>
      have hc := hw c (by simp)
      simp only [List.mem_cons, List.not_mem_nil, or_false, not_or] at hc
      exact ⟨c, v, rfl, by unfold isBlank; simp [hc]⟩
  · exact ⟨_, _, rfl, by decide⟩

/-- `key=value`, before the bracket, or with the comma after it. -/
theorem yields_named (hq : C50.alnum S '"' = false) {k v : Text} (hk : Word k) (hv : Value v) {d : Char} (hd : d = ']' ∨ d = ',') {r u : Text}
    (hu : (d = ']' ∧ u = ']' :: r) ∨ (d = ',' ∧ u = r ∧ ∃ c t, r = c :: t ∧ isBlank c = false)) :
    Yields grammar S (.rule R.NamedAttribute) (k ++ '=' :: (v ++ d :: r)) (some u) := by
  refine yields_rule (yields_act (yields_scope (yields_seq (u := '=' :: (v ++ d :: r)) (yields_rule (yields_act (yields_scope ?_))) (yields_seq (u := v ++ d :: r) (yields_lit.to rfl) ?_))))
  · obtain ⟨h0, hw⟩ := hk
    have hkey : ∀ x ∈ k, inKey x = true := by
      intro x hx
      have := hw x hx
      simp only [List.mem_cons, List.not_mem_nil, or_false, not_or] at this
      unfold inKey
      simp [this]
    have hy := C50.yields_plus_cls (S := S) inKey has_key (k ++ '=' :: (v ++ d :: r))
    rw [(cut hkey (by decide) _).1, (cut hkey (by decide) _).2, if_neg h0] at hy
    refine yields_seq (yields_notP ?_) hy
    cases k with
    | nil => exact absurd rfl h0
    | cons c k =>
      have hc := hw c (by simp)
      simp only [List.mem_cons, List.not_mem_nil, or_false, not_or] at hc
      exact never_Space (by unfold isBlank; simp [hc])
  · have hval := yields_value (S := S) hq hv hd r
    have hs : Yields grammar S (.star (.rule R.Space)) (v ++ d :: r) (some (v ++ d :: r)) := by
      obtain ⟨c, t, rfl, hc⟩ := value_head hv
      exact spaces_none hc _
    refine yields_seq hs (yields_seq hval ?_)
    rcases hu with ⟨rfl, rfl⟩ | ⟨rfl, rfl, c, t, rfl, hc⟩
    · exact yields_opt_none (yields_scope (never_seq (never_lit_head (by decide) (by decide))))
    · exact yields_opt_some (yields_scope (yields_seq (u := c :: t) (yields_lit.to rfl) (spaces_none hc t)))

/-- What is written in brackets: `key=value`, separated by commas. -/
inductive InBrackets : Text → Prop
  | none : InBrackets []
  | named {k v : Text} (hk : Word k) (hv : Value v) : InBrackets (k ++ '=' :: v)
  | more {k v a : Text} (hk : Word k) (hv : Value v) (ha : InBrackets a) (h0 : a ≠ []) : InBrackets (k ++ '=' :: (v ++ ',' :: a))

theorem word_head {k : Text} (h : Word k) : ∃ c t, k = c :: t ∧ isBlank c = false ∧ c ≠ ']' := by
  obtain ⟨h0, hw⟩ := h
  cases k with
  | nil => exact absurd rfl h0
  | cons c v =>
    have hc := hw c (by simp)
    simp only [List.mem_cons, List.not_mem_nil, or_false, not_or] at hc
    exact ⟨c, v, rfl, by unfold isBlank; simp [hc], by tauto⟩

theorem brackets_head {a : Text} (h : InBrackets a) (h0 : a ≠ []) : ∃ c t, a = c :: t ∧ isBlank c = false := by
  cases h with
  | none => exact absurd rfl h0
  | named hk hv => obtain ⟨c, t, rfl, hc, _⟩ := word_head hk; exact ⟨c, _, rfl, hc⟩
  | more hk hv ha h0 => obtain ⟨c, t, rfl, hc, _⟩ := word_head hk; exact ⟨c, _, rfl, hc⟩

theorem star_attributes (hq : C50.alnum S '"' = false) {a : Text} (h : InBrackets a) (r : Text) :
    Yields grammar S (.star (.act 66 (.scope (.seq (.notP (.lit [']'])) (.alt (.rule R.PositionalAttribute) (.rule R.NamedAttribute)))))) (a ++ ']' :: r) (some (']' :: r)) := by
  have stop : Never grammar S (.act 66 (.scope (.seq (.notP (.lit [']'])) (.alt (.rule R.PositionalAttribute) (.rule R.NamedAttribute))))) (']' :: r) :=
    yields_act (yields_scope (never_seq (never_notP (Yields.sure (u := r) (yields_lit.to rfl)))))
  induction h with
  | none => exact yields_star_stop stop
  | @named k v hk hv =>
    refine yields_star_step (u := ']' :: r) (yields_act (yields_scope (yields_seq (yields_notP ?_) ?_))) (yields_star_stop stop)
    · obtain ⟨c, t, rfl, _, hc⟩ := word_head hk
      exact never_lit_head (by decide) hc
    · rw [List.append_assoc]
      exact yields_alt_right (never_positional hk _) (yields_named hq hk hv (.inl rfl) (.inl ⟨rfl, rfl⟩))
  | @more k v a hk hv ha h0 ih =>
    refine yields_star_step (u := a ++ ']' :: r) (yields_act (yields_scope (yields_seq (yields_notP ?_) ?_))) ih
    · obtain ⟨c, t, rfl, _, hc⟩ := word_head hk
      exact never_lit_head (by decide) hc
    · rw [show k ++ '=' :: (v ++ ',' :: a) ++ ']' :: r = k ++ '=' :: (v ++ ',' :: (a ++ ']' :: r)) by simp]
      obtain ⟨c, t, rfl, hc⟩ := brackets_head ha h0
      exact yields_alt_right (never_positional hk _) (yields_named hq hk hv (.inr rfl) (.inr ⟨rfl, rfl, c, _, rfl, hc⟩))

theorem yields_attributes (hq : C50.alnum S '"' = false) {a : Text} (h : InBrackets a) (r : Text) : Yields grammar S (.rule R.InlineAttributes) ('[' :: (a ++ ']' :: r)) (some r) :=
  yields_rule (yields_act (yields_scope (yields_seq (u := a ++ ']' :: r) (yields_lit.to rfl) (yields_seq (u := ']' :: r) (star_attributes hq h r) (yields_lit.to rfl)))))

/-- The line. -/
theorem yields_inclusion (hq : C50.alnum S '"' = false) {p a g : Text} (h0 : p ≠ []) (hp : ∀ x ∈ p, x ∉ notInPath) (ha : InBrackets a) (hg : Blanks g) :
    Yields grammar S (.rule R.FileInclusion) ("include::".toList ++ p ++ ['['] ++ a ++ [']'] ++ g) (some []) := by
  have e : "include::".toList ++ p ++ ['['] ++ a ++ [']'] ++ g = "include::".toList ++ (p ++ '[' :: (a ++ ']' :: g)) := by simp only [List.append_assoc]; rfl
  rw [e]
  have hk := C50.yields_pLit (S := S) (l := "include::".toList) (by decide) ("include::".toList ++ (p ++ '[' :: (a ++ ']' :: g)))
  rw [C50.pLit_self] at hk
  refine yields_rule (yields_act (yields_scope (yields_seq (u := g) (yields_act (yields_scope (yields_seq hk (yields_seq (yields_path h0 hp _) (yields_attributes hq ha g))))) ?_)))
  have hn : NoEol g := by
    intro c hc
    rcases hg c hc with rfl | rfl <;> rfl
  have := C50.yields_blanks_EOL (S := S) hn
  rw [if_pos (List.all_eq_true.mpr (C50.blanks_isBlank hg))] at this
  exact this

variable {elem : σ → Option RawElem} {sects within : σ → Bool}

/-- What is read in such a line is what the action of the rule returns. -/
theorem inclusion_read (hS : RawCode S elem sects within) {st : Text} {s : σ} {l : Text} {r : Res σ} (hi : l.head? = some 'i') (hy : Yields grammar S (.rule R.FileInclusion) l (some []))
    (h : Eval grammar S (.rule R.DocumentRawLine) st s l r) : ∃ s', read elem r = elem (S.act 26 s' l []) := by
  obtain ⟨t, rfl⟩ : ∃ t, l = 'i' :: t := by
    cases l with
    | nil => cases hi
    | cons c t => cases hi; exact ⟨t, rfl⟩
  have h := eval_rule.mp h
  have n1 : Never grammar S (.rule R.AttributeDeclaration) ('i' :: t) := yields_rule (yields_act (yields_scope (never_seq (never_lit_head (by decide) (by decide)))))
  have n2 : Never grammar S (.rule R.AttributeReset) ('i' :: t) :=
    yields_rule (yields_alt_right (yields_act (yields_scope (never_seq (never_lit_head (by decide) (by decide))))) (yields_act (yields_scope (never_seq (never_lit_head (by decide) (by decide))))))
  have alts : ∀ st s r, Eval grammar S (.alt (.rule R.AttributeDeclaration) (.alt (.rule R.AttributeReset) (.alt (.rule R.FileInclusion)
    (.alt (.rule R.ConditionalInclusion) (.alt (.rule R.BlockDelimiter) (.rule R.RawSection)))))) st s ('i' :: t) r → ∃ s', r = .ok (S.act 26 s' ('i' :: t) []) [] := by
    intro st s r k
    rcases eval_alt.mp k with ⟨s1, _, k1⟩ | ⟨s1, u, k1, _⟩
    · rcases eval_alt.mp k1 with ⟨s2, _, k2⟩ | ⟨s2, u, k2, _⟩
      · rcases eval_alt.mp k2 with ⟨s3, k3, _⟩ | ⟨s3, u, k3, er⟩
        · cases hy _ _ _ k3
        · have ho := hy _ _ _ k3
          cases ho
          rcases eval_act.mp (eval_rule.mp k3) with ⟨s4, _, e⟩ | ⟨s4, u, _, e⟩
          · cases e
          · cases e; exact ⟨s4, er⟩
      · cases n2 _ _ _ k2
    · cases n1 _ _ _ k1
  have seq : ∀ st s r, Eval grammar S (.seq (.alt (.rule R.AttributeDeclaration) (.alt (.rule R.AttributeReset) (.alt (.rule R.FileInclusion)
    (.alt (.rule R.ConditionalInclusion) (.alt (.rule R.BlockDelimiter) (.rule R.RawSection)))))) (.rule R.EOF)) st s ('i' :: t) r →
      ∃ s' s'' , r = .ok s'' [] ∧ elem s'' = elem (S.act 26 s' ('i' :: t) []) := by
    intro st s r k
    rcases eval_seq.mp k with ⟨s1, k1, _⟩ | ⟨s1, u, k1, k2⟩
    · obtain ⟨s', e⟩ := alts _ _ _ k1; cases e
    · obtain ⟨s', e⟩ := alts _ _ _ k1
      cases e
      have hy := yields_EOF_nil _ _ _ k2
      rcases eval_notP.mp (eval_rule.mp k2) with ⟨s2, _, e⟩ | ⟨s2, v, _, e⟩
      · exact ⟨s', _, e, hS.back _ _⟩
      · rw [e] at hy; cases hy
  have sc : ∀ st s r, Eval grammar S (.scope (.seq (.alt (.rule R.AttributeDeclaration) (.alt (.rule R.AttributeReset) (.alt (.rule R.FileInclusion)
    (.alt (.rule R.ConditionalInclusion) (.alt (.rule R.BlockDelimiter) (.rule R.RawSection)))))) (.rule R.EOF))) st s ('i' :: t) r →
      ∃ s' s'' , r = .ok s'' [] ∧ elem s'' = elem (S.act 26 s' ('i' :: t) []) := by
    intro st s r k
    rcases eval_scope.mp k with ⟨s2, k2, e⟩ | ⟨s2, v, k2, e⟩
    · obtain ⟨s', s'', e', _⟩ := seq _ _ _ k2; cases e'
    · obtain ⟨s', s'', e', hx⟩ := seq _ _ _ k2; cases e'
      exact ⟨s', s2, e, hx⟩
  rcases eval_act.mp h with ⟨s1, h1, _⟩ | ⟨s1, u, h1, e⟩
  · obtain ⟨s', s'', e', _⟩ := sc _ _ _ h1; cases e'
  · obtain ⟨s', s'', e', hx⟩ := sc _ _ _ h1; cases e'
    refine ⟨s', ?_⟩
    rw [e]
    exact (hS.passes _ _ _).1.trans hx

end
end C72
end Verif
