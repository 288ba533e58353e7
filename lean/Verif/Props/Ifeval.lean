import Verif.Model.Ifeval
import Verif.Props.Ranges
/-! C35, grammar part: which `ifeval` lines are understood. -/
namespace Verif.C35
open Verif.Ifeval

/-! ### Specification -/

/-- The characters of the syntax are not letters or digits. -/
def ClassOK (alnum : Char → Bool) : Prop :=
  ∀ c ∈ ['{', '}', '"', '\'', '\\', ' ', '\t', '=', '<', '>', '!', ']', '-', '.', '_'], alnum c = false

/-- An attribute name. -/
def NameText (alnum : Char → Bool) (n : Text) : Prop :=
  ∃ c cs, n = c :: cs ∧ (alnum c = true ∨ c = '_') ∧ ∀ x ∈ cs, alnum x = true ∨ x = '-'

/-- The documented forms of an operand. -/
inductive OperandText (alnum : Char → Bool) : Operand → Text → Prop
  | ref (n : Text) : NameText alnum n → OperandText alnum (.ref (String.ofList n)) ('{' :: n ++ ['}'])
  | dquotedRef (n : Text) : NameText alnum n → OperandText alnum (.ref (String.ofList n)) ('"' :: '{' :: n ++ ['}', '"'])
  | squotedRef (n : Text) : NameText alnum n → OperandText alnum (.ref (String.ofList n)) ('\'' :: '{' :: n ++ ['}', '\''])
  | dquotedWord (w : Text) : w ≠ [] → (∀ c ∈ w, alnum c = true ∨ c ∈ [',', '?', '!', ';', '_', '-']) →
      OperandText alnum (.lit (.str w)) ('"' :: w ++ ['"'])
  | squotedWord (w : Text) : w ≠ [] → (∀ c ∈ w, alnum c = true ∨ c ∈ [',', '?', '!', ';', '_', '-']) →
      OperandText alnum (.lit (.str w)) ('\'' :: w ++ ['\''])
  | int (i : Int) (t : Text) : C39.IntText i t → OperandText alnum (.lit (.int i)) t

/-- The documented operators. -/
def opText : CmpOp → Text
  | .eq => ['=', '=']
  | .ne => ['!', '=']
  | .lt => ['<']
  | .le => ['<', '=']
  | .gt => ['>']
  | .ge => ['>', '=']

def Spaces (s : Text) : Prop := ∀ c ∈ s, c = ' ' ∨ c = '\t'

/-- An `ifeval` line as documented. -/
def ifevalLine (l : Text) (op : CmpOp) (r : Text) (s1 s2 s3 : Text) : Text :=
  "ifeval::[".toList ++ (l ++ (s1 ++ (opText op ++ (s2 ++ (r ++ (']' :: s3))))))

/-! ### Proofs -/

theorem pLit_append (s t : Text) : pLit s (s ++ t) = some t := by
  unfold pLit
  rw [if_pos (by rw [List.isPrefixOf_iff_prefix]; exact List.prefix_append _ _), List.drop_left]

theorem pName_complete (alnum : Char → Bool) (n : Text) (c : Char) (rest : Text) (h : NameText alnum n)
    (hc : alnum c = false ∧ c ≠ '-') : pName alnum (n ++ c :: rest) = some (n, c :: rest) := by
  obtain ⟨x, xs, rfl, hx, hxs⟩ := h
  unfold pName
  rw [List.cons_append]
  dsimp only
  have := takeWhile_append_stop (fun c => alnum c || decide (c = '-')) xs (c :: rest)
    (fun y hy => by have := hxs y hy; simpa using this) (by intro y hy; simp at hy; subst hy; simp [hc])
  rw [if_pos (by simpa using hx), this.1, this.2]

theorem pRef_complete (alnum : Char → Bool) (hk : ClassOK alnum) (n rest : Text) (h : NameText alnum n) :
    pRef alnum ('{' :: n ++ '}' :: rest) = some (.ref (String.ofList n), rest) := by
  show (match pName alnum (n ++ '}' :: rest) with
    | some (n, '}' :: r') => some (Operand.ref (String.ofList n), r')
    | _ => none) = _
  rw [pName_complete alnum n '}' rest h ⟨hk _ (by simp), by decide⟩]
  rfl

theorem pQuotedRef_no (alnum : Char → Bool) (q c : Char) (r : Text) (h : c ≠ q) : pQuotedRef alnum q (c :: r) = none := by
  unfold pQuotedRef; dsimp only; rw [if_neg h]

theorem pQuotedWord_no (alnum : Char → Bool) (q c : Char) (r : Text) (h : c ≠ q) : pQuotedWord alnum q (c :: r) = none := by
  unfold pQuotedWord; dsimp only; rw [if_neg h]

theorem pRef_no (alnum : Char → Bool) (c : Char) (r : Text) (h : c ≠ '{') (h' : c ≠ '\\') : pRef alnum (c :: r) = none := by
  unfold pRef
  split
  · rename_i e; injection e with e _; exact absurd e h'
  · rename_i e; injection e with e _; exact absurd e h
  · rfl

theorem pQuotedRef_yes (alnum : Char → Bool) (hk : ClassOK alnum) (q : Char) (n rest : Text) (h : NameText alnum n) :
    pQuotedRef alnum q (q :: '{' :: n ++ '}' :: q :: rest) = some (.ref (String.ofList n), rest) := by
  show (if q = q then match pRef alnum ('{' :: n ++ '}' :: q :: rest) with
      | some (o, c' :: r') => if c' = q then some (o, r') else none
      | _ => none else none) = _
  rw [if_pos rfl, pRef_complete alnum hk n (q :: rest) h]
  simp

theorem pQuotedRef_word (alnum : Char → Bool) (hk : ClassOK alnum) (q : Char) (w rest : Text) (hw : w ≠ [])
    (h : ∀ c ∈ w, alnum c = true ∨ c ∈ [',', '?', '!', ';', '_', '-']) :
    pQuotedRef alnum q (q :: w ++ rest) = none := by
  cases w with
  | nil => exact absurd rfl hw
  | cons c w =>
    have hc := h c List.mem_cons_self
    have h1 : c ≠ '{' := by
      rintro rfl
      rcases hc with hc | hc
      · rw [hk _ (by simp)] at hc; cases hc
      · revert hc; decide
    have h2 : c ≠ '\\' := by
      rintro rfl
      rcases hc with hc | hc
      · rw [hk _ (by simp)] at hc; cases hc
      · revert hc; decide
    show (if q = q then match pRef alnum (c :: (w ++ rest)) with
      | some (o, c' :: r') => if c' = q then some (o, r') else none
      | _ => none else none) = _
    rw [if_pos rfl, pRef_no alnum c _ h1 h2]

theorem pQuotedWord_yes (alnum : Char → Bool) (hk : ClassOK alnum) (q : Char) (hq : q = '"' ∨ q = '\'') (w rest : Text) (hw : w ≠ [])
    (h : ∀ c ∈ w, alnum c = true ∨ c ∈ [',', '?', '!', ';', '_', '-']) :
    pQuotedWord alnum q (q :: w ++ q :: rest) = some (.lit (.str w), rest) := by
  have := takeWhile_append_stop (isWord alnum) w (q :: rest)
    (fun y hy => by
      have := h y hy
      unfold isWord
      simp only [List.mem_cons, List.not_mem_nil, or_false] at this
      simp only [Bool.or_eq_true, decide_eq_true_eq]
      rcases this with h | h | h | h | h | h | h <;> simp [h])
    (by
      intro y hy; simp at hy; subst hy
      have ha : alnum q = false := by
        rcases hq with rfl | rfl <;> exact hk _ (by simp)
      unfold isWord
      rw [ha]
      rcases hq with rfl | rfl <;> decide)
  unfold pQuotedWord
  rw [List.cons_append]
  dsimp only
  rw [if_pos rfl, this.1, if_neg hw, this.2]
  simp

/-- A documented operand is recognised, whatever follows (if it is no digit). -/
theorem pMember_complete (alnum : Char → Bool) (hk : ClassOK alnum) (o : Operand) (t rest : Text)
    (h : OperandText alnum o t) (hr : C39.Stops isDigit rest) : pMember alnum (t ++ rest) = some (o, rest) := by
  unfold pMember
  cases h with
  | ref n hn =>
    have e : ('{' :: n ++ ['}']) ++ rest = '{' :: n ++ '}' :: rest := by simp
    rw [e]
    have h1 : ∀ q, '{' ≠ q → pQuotedRef alnum q ('{' :: n ++ '}' :: rest) = none := fun q hq => pQuotedRef_no _ _ _ _ hq
    rw [h1 '"' (by decide), h1 '\'' (by decide), pRef_complete alnum hk n rest hn]
    rfl
  | dquotedRef n hn =>
    have e : ('"' :: '{' :: n ++ ['}', '"']) ++ rest = '"' :: '{' :: n ++ '}' :: '"' :: rest := by simp
    rw [e, pQuotedRef_yes alnum hk '"' n rest hn]
    rfl
  | squotedRef n hn =>
    have e : ('\'' :: '{' :: n ++ ['}', '\'']) ++ rest = '\'' :: '{' :: n ++ '}' :: '\'' :: rest := by simp
    rw [e, pQuotedRef_yes alnum hk '\'' n rest hn]
    have : pQuotedRef alnum '"' ('\'' :: '{' :: n ++ '}' :: '\'' :: rest) = none := pQuotedRef_no _ _ _ _ (by decide)
    rw [this]; rfl
  | dquotedWord w hw ha =>
    have e : ('"' :: w ++ ['"']) ++ rest = '"' :: w ++ '"' :: rest := by simp
    rw [e, pQuotedRef_word alnum hk '"' w ('"' :: rest) hw ha, pQuotedWord_yes alnum hk '"' (Or.inl rfl) w rest hw ha]
    have h1 : pQuotedRef alnum '\'' ('"' :: w ++ '"' :: rest) = none := pQuotedRef_no _ _ _ _ (by decide)
    have h2 : pRef alnum ('"' :: w ++ '"' :: rest) = none := pRef_no _ _ _ (by decide) (by decide)
    rw [h1, h2]; rfl
  | squotedWord w hw ha =>
    have e : ('\'' :: w ++ ['\'']) ++ rest = '\'' :: w ++ '\'' :: rest := by simp
    rw [e, pQuotedRef_word alnum hk '\'' w ('\'' :: rest) hw ha, pQuotedWord_yes alnum hk '\'' (Or.inr rfl) w rest hw ha]
    have h1 : pQuotedRef alnum '"' ('\'' :: w ++ '\'' :: rest) = none := pQuotedRef_no _ _ _ _ (by decide)
    have h2 : pRef alnum ('\'' :: w ++ '\'' :: rest) = none := pRef_no _ _ _ (by decide) (by decide)
    have h3 : pQuotedWord alnum '"' ('\'' :: w ++ '\'' :: rest) = none := pQuotedWord_no _ _ _ _ (by decide)
    rw [h1, h2, h3]; rfl
  | int i _ hi =>
    have hne : ∃ c cs, t = c :: cs ∧ (c = '-' ∨ ('0' ≤ c ∧ c ≤ '9')) := by
      obtain ⟨_, _, ⟨n, _, h1, h2, _⟩ | ⟨n, r, _, h1, _⟩⟩ := hi
      · cases t with
        | nil => exact absurd rfl h1
        | cons c cs => exact ⟨c, cs, rfl, Or.inr (h2 c List.mem_cons_self)⟩
      · exact ⟨'-', r, h1, Or.inl rfl⟩
    obtain ⟨c, cs, rfl, hc⟩ := hne
    have hne : ∀ q ∈ ['"', '\'', '{', '\\'], c ≠ q := by
      intro q hq e
      subst e
      rcases hc with rfl | hc
      · revert hq; decide
      · simp only [List.mem_cons, List.not_mem_nil, or_false] at hq
        rcases hq with rfl | rfl | rfl | rfl <;> revert hc <;> decide
    have h1 := pQuotedRef_no alnum '"' c (cs ++ rest) (hne _ (by simp))
    have h2 := pQuotedRef_no alnum '\'' c (cs ++ rest) (hne _ (by simp))
    have h3 := pRef_no alnum c (cs ++ rest) (hne _ (by simp)) (hne _ (by simp))
    have h4 := pQuotedWord_no alnum '"' c (cs ++ rest) (hne _ (by simp))
    have h5 := pQuotedWord_no alnum '\'' c (cs ++ rest) (hne _ (by simp))
    have h6 := C39.pInteger_complete i (c :: cs) rest hi hr
    rw [List.cons_append] at h6 ⊢
    rw [h1, h2, h3, h4, h5, h6]; rfl

theorem dropSpaces (s : Text) (hs : Spaces s) (c : Char) (r : Text) (hc : c ≠ ' ' ∧ c ≠ '\t') :
    (s ++ c :: r).dropWhile isSpace = c :: r := by
  refine (takeWhile_append_stop isSpace s (c :: r) (fun x hx => ?_) ?_).2
  · rcases hs x hx with rfl | rfl <;> rfl
  · intro x hx; simp at hx; subst hx; simp [isSpace, hc]

theorem dropSpaces_all (s : Text) (hs : Spaces s) : s.dropWhile isSpace = [] := by
  have := (takeWhile_append_stop isSpace s [] (fun x hx => by rcases hs x hx with rfl | rfl <;> rfl) (by intro x hx; simp at hx)).2
  simpa using this

theorem operandText_head (alnum : Char → Bool) (o : Operand) (t : Text) (h : OperandText alnum o t) :
    ∃ c cs, t = c :: cs ∧ (c = '{' ∨ c = '"' ∨ c = '\'' ∨ c = '-' ∨ ('0' ≤ c ∧ c ≤ '9')) := by
  cases h with
  | ref n hn => exact ⟨_, _, rfl, Or.inl rfl⟩
  | dquotedRef n hn => exact ⟨_, _, rfl, Or.inr (Or.inl rfl)⟩
  | squotedRef n hn => exact ⟨_, _, rfl, Or.inr (Or.inr (Or.inl rfl))⟩
  | dquotedWord w hw ha => exact ⟨_, _, rfl, Or.inr (Or.inl rfl)⟩
  | squotedWord w hw ha => exact ⟨_, _, rfl, Or.inr (Or.inr (Or.inl rfl))⟩
  | int i _ hi =>
    obtain ⟨_, _, ⟨n, _, h1, h2, _⟩ | ⟨n, r, _, h1, _⟩⟩ := hi
    · cases t with
      | nil => exact absurd rfl h1
      | cons c cs => exact ⟨c, cs, rfl, Or.inr (Or.inr (Or.inr (Or.inr (h2 c List.mem_cons_self))))⟩
    · exact ⟨'-', r, h1, Or.inr (Or.inr (Or.inr (Or.inl rfl)))⟩

theorem not_op_char {c : Char} (h : c = '{' ∨ c = '"' ∨ c = '\'' ∨ c = '-' ∨ ('0' ≤ c ∧ c ≤ '9')) :
    c ≠ ' ' ∧ c ≠ '\t' ∧ c ≠ '=' := by
  refine ⟨?_, ?_, ?_⟩ <;> rintro rfl <;> revert h <;> decide

theorem pOperator_ok (op : CmpOp) (hop : op ≠ .le ∧ op ≠ .ge) (c : Char) (r : Text) (_hc : c ≠ '=') :
    pOperator (opText op ++ c :: r) = some (op, c :: r) := by
  cases op with
  | eq => rfl
  | ne => rfl
  | lt => rfl
  | gt => rfl
  | le => exact absurd rfl hop.1
  | ge => exact absurd rfl hop.2

theorem stops_after_operand (s : Text) (hs : Spaces s) (op : CmpOp) (r : Text) : C39.Stops isDigit (s ++ (opText op ++ r)) := by
  intro x hx
  cases s with
  | nil =>
    cases op <;> simp [opText] at hx <;> subst hx <;> decide
  | cons c cs =>
    simp at hx
    subst hx
    rcases hs c List.mem_cons_self with rfl | rfl <;> decide

theorem opText_cons (op : CmpOp) : ∃ c cs, opText op = c :: cs ∧ c ≠ ' ' ∧ c ≠ '\t' := by
  cases op <;> exact ⟨_, _, rfl, by decide, by decide⟩

theorem ifeval_prefix (alnum : Char → Bool) (hk : ClassOK alnum) (l r : Operand) (lt rt s1 s2 s3 : Text) (op : CmpOp)
    (hl : OperandText alnum l lt) (h1 : Spaces s1) :
    pIfeval alnum (ifevalLine lt op rt s1 s2 s3) =
      match pOperator (opText op ++ (s2 ++ (rt ++ (']' :: s3)))) with
      | none => none
      | some (op, t) => pRight alnum l op t := by
  unfold pIfeval ifevalLine
  rw [pLit_append]
  dsimp only
  rw [pMember_complete alnum hk l lt _ hl (stops_after_operand s1 h1 op _)]
  dsimp only
  obtain ⟨c, cs, hc, hc1, hc2⟩ := opText_cons op
  rw [hc, List.cons_append, dropSpaces s1 h1 c _ ⟨hc1, hc2⟩]
  rfl

/-- **C35 (grammar).** A documented `ifeval` line with `==`, `!=`, `<` or `>` is understood as written,
for all operands in the documented forms and any spacing. -/
theorem ifeval_parsed_partial (alnum : Char → Bool) (hk : ClassOK alnum) (l r : Operand) (lt rt s1 s2 s3 : Text) (op : CmpOp)
    (hop : op ≠ .le ∧ op ≠ .ge) (hl : OperandText alnum l lt) (hr : OperandText alnum r rt)
    (h1 : Spaces s1) (h2 : Spaces s2) (h3 : Spaces s3) :
    pIfeval alnum (ifevalLine lt op rt s1 s2 s3) = some (.ifeval l op r) := by
  rw [ifeval_prefix alnum hk l r lt rt s1 s2 s3 op hl h1]
  obtain ⟨c, cs, e, hc⟩ := operandText_head alnum r rt hr
  obtain ⟨n1, n2, n3⟩ := not_op_char hc
  -- the character after the operator is a space or the first character of the right operand
  have hop' : pOperator (opText op ++ (s2 ++ (rt ++ (']' :: s3)))) = some (op, s2 ++ (rt ++ (']' :: s3))) := by
    cases hs : s2 with
    | nil => rw [e, List.nil_append, List.cons_append]; exact pOperator_ok op hop c _ n3
    | cons x xs =>
      rw [List.cons_append]
      refine pOperator_ok op hop x _ ?_
      rintro rfl
      rcases h2 '=' (by rw [hs]; simp) with h | h <;> revert h <;> decide
  rw [hop']
  show pRight alnum l op _ = _
  unfold pRight
  have hd : (s2 ++ (rt ++ (']' :: s3))).dropWhile isSpace = rt ++ (']' :: s3) := by
    rw [e, List.cons_append]; exact dropSpaces s2 h2 c _ ⟨n1, n2⟩
  rw [hd, pMember_complete alnum hk r rt _ hr (by intro x hx; simp at hx; subst hx; decide)]
  dsimp only
  have hcl : pClose (']' :: s3) = true := by
    show (s3.dropWhile isSpace).isEmpty = true
    rw [dropSpaces_all s3 h3]; rfl
  rw [if_pos hcl]

/-- Finding: no line at all is ever understood as a `<=` or `>=` comparison: the shorter operators come
first in the grammar. -/
theorem finding_le_ge_never_parsed (alnum : Char → Bool) (t : Text) (l r : Operand) (op : CmpOp)
    (h : pIfeval alnum t = some (.ifeval l op r)) : op ≠ .le ∧ op ≠ .ge := by
  have hop : ∀ t op r, pOperator t = some (op, r) → op ≠ .le ∧ op ≠ .ge := by
    intro t op r h
    have key : ∀ a b : Text, pLit a t = none → a.isPrefixOf b = true → pLit b t = none := by
      intro a b ha hab
      unfold pLit at *
      split at ha
      · cases ha
      · rename_i hn
        rw [if_neg]
        intro hb
        apply hn
        rw [List.isPrefixOf_iff_prefix] at *
        exact hab.trans hb
    unfold pOperator operators pFirst at h
    split at h
    · cases h; exact ⟨by decide, by decide⟩
    unfold pFirst at h
    split at h
    · cases h; exact ⟨by decide, by decide⟩
    unfold pFirst at h
    split at h
    · cases h; exact ⟨by decide, by decide⟩
    rename_i hlt
    unfold pFirst at h
    rw [key _ "<=".toList hlt (by decide)] at h
    dsimp only at h
    unfold pFirst at h
    split at h
    · cases h; exact ⟨by decide, by decide⟩
    rename_i hgt
    unfold pFirst at h
    rw [key _ ">=".toList hgt (by decide)] at h
    cases h
  unfold pIfeval at h
  split at h
  · cases h
  split at h
  · cases h
  split at h
  · cases h
  rename_i op' t' hp
  unfold pRight at h
  split at h
  · cases h
  split at h
  · injection h with h
    injection h with _ h _
    rw [← h]
    exact hop _ _ _ hp
  · cases h

/-- Finding: a documented `ifeval` line with `<=` or `>=` is not recognised at all (it is copied to the
output like ordinary text, and the block up to its `endif` is always kept). -/
theorem finding_le_ge_line_rejected (alnum : Char → Bool) (hk : ClassOK alnum) (l r : Operand) (lt rt s1 s2 s3 : Text) (op : CmpOp)
    (hop : op = .le ∨ op = .ge) (hl : OperandText alnum l lt) (h1 : Spaces s1) :
    pIfeval alnum (ifevalLine lt op rt s1 s2 s3) = none := by
  rw [ifeval_prefix alnum hk l r lt rt s1 s2 s3 op hl h1]
  have hm : ∀ t, pMember alnum ('=' :: t) = none := by
    intro t
    unfold pMember
    have h1 : pQuotedRef alnum '"' ('=' :: t) = none := pQuotedRef_no _ _ _ _ (by decide)
    have h2 : pQuotedRef alnum '\'' ('=' :: t) = none := pQuotedRef_no _ _ _ _ (by decide)
    have h3 : pRef alnum ('=' :: t) = none := pRef_no _ _ _ (by decide) (by decide)
    have h4 : pQuotedWord alnum '"' ('=' :: t) = none := pQuotedWord_no _ _ _ _ (by decide)
    have h5 : pQuotedWord alnum '\'' ('=' :: t) = none := pQuotedWord_no _ _ _ _ (by decide)
    have h6 : pInteger ('=' :: t) = none := rfl
    rw [h1, h2, h3, h4, h5, h6]; rfl
  rcases hop with rfl | rfl
  · show pRight alnum l _ ('=' :: (s2 ++ (rt ++ (']' :: s3)))) = none
    unfold pRight
    have : (('=' :: (s2 ++ (rt ++ (']' :: s3)))) : Text).dropWhile isSpace = '=' :: (s2 ++ (rt ++ (']' :: s3))) := rfl
    rw [this, hm]
  · show pRight alnum l _ ('=' :: (s2 ++ (rt ++ (']' :: s3)))) = none
    unfold pRight
    have : (('=' :: (s2 ++ (rt ++ (']' :: s3)))) : Text).dropWhile isSpace = '=' :: (s2 ++ (rt ++ (']' :: s3))) := rfl
    rw [this, hm]

-- non-vacuity
example : ClassOK Char.isAlphanum := by unfold ClassOK; decide
example : pIfeval Char.isAlphanum "ifeval::[\"{a}\" == 'x,y'] ".toList = some (.ifeval (.ref "a") .eq (.lit (.str "x,y".toList))) := by decide
example : pIfeval Char.isAlphanum "ifeval::[{a} <= 3]".toList = none := by decide
example : OperandText Char.isAlphanum (.ref "ab") "{ab}".toList :=
  .ref "ab".toList ⟨'a', ['b'], rfl, Or.inl (by decide), by decide⟩

end Verif.C35
