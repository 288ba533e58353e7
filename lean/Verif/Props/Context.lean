import Verif.Model.Preprocess
/-!
C06 — attributes given through the API cannot be overridden by the document while parsing.
C36 — `ifdef` and `ifndef` are complementary tests of attribute presence.
C35 — `ifeval` compares as documented (evaluation part).
-/
namespace Verif.C06

/-! ### Specification -/

/-- What a document can do to the attributes while it is parsed. -/
inductive Op where
  | declare (k : String) (v : Val)
  | reset (k : String)
  /-- front matter: several attributes at once -/
  | declareAll (kvs : AMap Val)

/-- Effect of an operation on one attribute: `some r` when the operation concerns it. -/
def Op.on (k : String) : Op → Option (Option Val)
  | .declare k' v => if k' = k then some (some v) else none
  | .reset k' => if k' = k then some none else none
  | .declareAll kvs => (AMap.get kvs k).map some

/-- The value a document history gives to an attribute: that of the last operation about it. -/
def docValue (k : String) : List Op → Option Val
  | [] => none
  | op :: ops =>
    -- a later operation about `k` takes precedence
    if ops.any (fun o => (o.on k).isSome) then docValue k ops
    else (op.on k).getD none

/-- Running an operation on the context. -/
def Op.run (a : CtxAttrs) : Op → CtxAttrs
  | .declare k v => a.set k v
  | .reset k => a.unset k
  | .declareAll kvs => a.setAll kvs

/-- The maps occurring in an operation are maps. -/
def Op.WF : Op → Prop
  | .declareAll kvs => AMap.WF kvs
  | _ => True

/-! ### Lemmas -/

theorem run_imm (a : CtxAttrs) (op : Op) : (op.run a).imm = a.imm := by cases op <;> rfl

theorem run_doc (a : CtxAttrs) (op : Op) (wf : op.WF) (k : String) :
    AMap.get (op.run a).doc k = match op.on k with
      | some r => r
      | none => AMap.get a.doc k := by
  cases op with
  | declare k' v =>
    simp only [Op.run, Op.on, CtxAttrs.set]
    by_cases h : k' = k
    · subst h; simp
    · simp [h, AMap.get_set_ne _ _ (fun e => h e.symm)]
  | reset k' =>
    simp only [Op.run, Op.on, CtxAttrs.unset]
    by_cases h : k' = k
    · subst h; simp
    · simp [h, AMap.get_del_ne _ (fun e => h e.symm)]
  | declareAll kvs =>
    simp only [Op.run, Op.on, CtxAttrs.setAll]
    rw [AMap.get_setAll _ wf]
    cases AMap.get kvs k <;> rfl

theorem run_docWF (a : CtxAttrs) (op : Op) (h : AMap.WF a.doc) : AMap.WF (op.run a).doc := by
  cases op with
  | declare k' v => exact AMap.WF_set h _ _
  | reset k' => exact AMap.WF_del h _
  | declareAll kvs => exact AMap.WF_setAll h _

theorem foldl_doc (ops : List Op) (wf : ∀ o ∈ ops, o.WF) (k : String) : ∀ a : CtxAttrs,
    AMap.get (ops.foldl Op.run a).doc k =
      if ops.any (fun o => (o.on k).isSome) then docValue k ops else AMap.get a.doc k := by
  induction ops with
  | nil => intro a; rfl
  | cons op ops ih =>
    intro a
    rw [List.foldl_cons, ih (fun o ho => wf o (by simp [ho]))]
    rw [run_doc a op (wf op (by simp))]
    by_cases h : ops.any (fun o => (o.on k).isSome) = true
    · have h' : (op :: ops).any (fun o => (o.on k).isSome) = true := by simp [h]
      rw [if_pos h, if_pos h', docValue, if_pos h]
    · rw [if_neg h]
      cases h1 : op.on k with
      | none =>
        have h' : ¬ (op :: ops).any (fun o => (o.on k).isSome) = true := by
          simpa [h1] using h
        rw [if_neg h']
      | some r =>
        have h' : (op :: ops).any (fun o => (o.on k).isSome) = true := by simp [h1]
        rw [if_pos h', docValue, if_neg h, h1]; rfl

theorem foldl_imm (ops : List Op) : ∀ a : CtxAttrs, (ops.foldl Op.run a).imm = a.imm := by
  induction ops with
  | nil => intro a; rfl
  | cons op ops ih => intro a; rw [List.foldl_cons, ih, run_imm]

theorem foldl_docWF (ops : List Op) : ∀ a : CtxAttrs, AMap.WF a.doc → AMap.WF (ops.foldl Op.run a).doc := by
  induction ops with
  | nil => intro a h; exact h
  | cons op ops ih => intro a h; exact ih _ (run_docWF a op h)

/-! ### Theorems -/

/-- **C06.** After any sequence of declarations and resets, reading an attribute yields the value
given through the API if there is one, otherwise the outcome of the last operation about it. -/
theorem get_after_history (api : AMap Val) (ops : List Op) (wf : ∀ o ∈ ops, o.WF) (k : String) :
    (ops.foldl Op.run (CtxAttrs.new api)).get k =
      match AMap.get api k with
      | some v => some v
      | none => docValue k ops := by
  unfold CtxAttrs.get
  rw [foldl_imm, foldl_doc ops wf k]
  show (match AMap.get api k with
    | some v => some v
    | none => if ops.any (fun o => (o.on k).isSome) = true then docValue k ops else none) = _
  cases AMap.get api k with
  | some v => rfl
  | none =>
    simp only
    by_cases h : ops.any (fun o => (o.on k).isSome) = true
    · simp [h]
    · simp only [h]
      clear wf
      induction ops with
      | nil => rfl
      | cons op ops ih =>
        simp only [List.any_cons, Bool.or_eq_true, not_or] at h
        simp only [docValue, h.2]
        cases hk : op.on k with
        | none => rfl
        | some r => simp [hk] at h

/-- **C06.** The attribute set handed to conditionals and id generation (`allAttributes`) agrees
with reading attributes one by one, in every reachable state and for every map iteration order. -/
theorem all_agrees_with_get (api : AMap Val) (hapi : AMap.WF api) (ops : List Op) (k : String)
    (docOrder immOrder : AMap Val)
    (hd : docOrder.Perm (ops.foldl Op.run (CtxAttrs.new api)).doc)
    (hi : immOrder.Perm (ops.foldl Op.run (CtxAttrs.new api)).imm) :
    AMap.get (CtxAttrs.all ⟨immOrder, docOrder⟩) k = (ops.foldl Op.run (CtxAttrs.new api)).get k := by
  have w1 : AMap.WF (ops.foldl Op.run (CtxAttrs.new api)).doc :=
    foldl_docWF ops _ (by simp [CtxAttrs.new, AMap.WF])
  have w2 : AMap.WF (ops.foldl Op.run (CtxAttrs.new api)).imm := by rw [foldl_imm]; exact hapi
  have w1' : AMap.WF docOrder := (hd.map Prod.fst).nodup_iff.2 w1
  have w2' : AMap.WF immOrder := (hi.map Prod.fst).nodup_iff.2 w2
  unfold CtxAttrs.all CtxAttrs.get
  simp only
  rw [AMap.get_setAll _ w2', AMap.get_setAll _ w1', AMap.get_perm w2' hi, AMap.get_perm w1' hd]
  simp only [AMap.get_nil]
  cases AMap.get (ops.foldl Op.run (CtxAttrs.new api)).imm k with
  | some v => rfl
  | none => cases AMap.get (ops.foldl Op.run (CtxAttrs.new api)).doc k <;> rfl

/-- An attribute given through the API keeps its value through every document history. -/
theorem api_value_is_immutable (api : AMap Val) (ops : List Op) (wf : ∀ o ∈ ops, o.WF) (k : String) (v : Val)
    (h : AMap.get api k = some v) : (ops.foldl Op.run (CtxAttrs.new api)).get k = some v := by
  rw [get_after_history api ops wf, h]

-- non-vacuity: an API attribute that the document tries to change and to remove
example : (([.declare "a" (.int 2), .reset "a", .declareAll [("a", .int 3), ("b", .int 4)]] : List Op).foldl Op.run
    (CtxAttrs.new [("a", .int 1)])).get "a" = some (.int 1) := by decide
example : (([.declare "a" (.int 2), .reset "a", .declareAll [("a", .int 3), ("b", .int 4)]] : List Op).foldl Op.run
    (CtxAttrs.new [("a", .int 1)])).get "b" = some (.int 4) := by decide

/-- **C36.** `ifdef::k[]` holds iff the attribute is set at that point of the document, by the API or
by a declaration not followed by a reset; `ifndef::k[]` is its negation. -/
theorem ifdef_iff (api : AMap Val) (hapi : AMap.WF api) (ops : List Op) (wf : ∀ o ∈ ops, o.WF) (k : String)
    (content : Option Text) :
    let a := ops.foldl Op.run (CtxAttrs.new api)
    ((Cond.ifdef k content).eval a.all = true ↔ (AMap.get api k).isSome ∨ (docValue k ops).isSome) ∧
    (Cond.ifndef k content).eval a.all = !(Cond.ifdef k content).eval a.all := by
  intro a
  refine ⟨?_, rfl⟩
  show (AMap.get a.all k).isSome = true ↔ _
  have := all_agrees_with_get api hapi ops k a.doc a.imm (List.Perm.refl _) (List.Perm.refl _)
  have h2 : AMap.get a.all k = a.get k := this
  rw [h2, get_after_history api ops wf]
  cases AMap.get api k <;> simp

example : AMap.WF ([("x", .int 1)] : AMap Val) := by simp [AMap.WF]
example : (docValue "k" [.declare "k" (.int 1), .reset "z"]).isSome = true := by decide
example : (docValue "k" [.declare "k" (.int 1), .reset "k"]).isSome = false := by decide

end Verif.C06

namespace Verif.C35

/-- Two values can be compared when they have the same basic type. -/
def comparable : Val → Val → Prop
  | .str _, .str _ => True
  | .int _, .int _ => True
  | .flt _, .flt _ => True
  | _, _ => False

/-- The order on values of the same type: code point order on strings, numeric order on numbers. -/
def less : Val → Val → Prop
  | .str a, .str b => a < b
  | .int a, .int b => a < b
  | .flt a, .flt b => a < b
  | _, _ => False

/-- The documented meaning of the six operators. -/
def holds : CmpOp → Val → Val → Prop
  | .eq, a, b => comparable a b ∧ a = b
  | .ne, a, b => comparable a b ∧ a ≠ b
  | .lt, a, b => comparable a b ∧ less a b
  | .le, a, b => comparable a b ∧ ¬ less b a
  | .gt, a, b => comparable a b ∧ less b a
  | .ge, a, b => comparable a b ∧ ¬ less a b

/-- **C35.** The comparison of two values is true iff they have the same type and are related by
the operator. -/
theorem cmp_iff (op : CmpOp) (a b : Val) : op.eval a b = true ↔ holds op a b := by
  cases op <;> cases a <;> cases b <;>
    simp [CmpOp.eval, holds, comparable, less, List.not_lt, Rat.not_lt]

/-- **C35.** An `ifeval` is true iff both operands have a value (a reference to an unset attribute
has none) and the values are related by the operator. -/
theorem ifeval_iff (attrs : AMap Val) (l r : Operand) (op : CmpOp) :
    (Cond.ifeval l op r).eval attrs = true ↔
      ∃ a b, (l = .lit a ∨ ∃ n, l = .ref n ∧ AMap.get attrs n = some a) ∧
        (r = .lit b ∨ ∃ n, r = .ref n ∧ AMap.get attrs n = some b) ∧ holds op a b := by
  have other : ∀ op (a b : Val) k, ¬ holds op (.other k) b ∧ ¬ holds op a (.other k) := by
    intro op a b k
    constructor
    · cases op <;> cases b <;> simp [holds, comparable]
    · cases op <;> cases a <;> simp [holds, comparable]
  show op.eval (l.value attrs) (r.value attrs) = true ↔ _
  rw [cmp_iff]
  constructor
  · intro h
    refine ⟨l.value attrs, r.value attrs, ?_, ?_, h⟩
    · cases l with
      | lit v => exact Or.inl rfl
      | ref n =>
        right; refine ⟨n, rfl, ?_⟩
        cases hn : AMap.get attrs n with
        | some v => simp [Operand.value, hn]
        | none => simp only [Operand.value, hn] at h; exact absurd h (other op (.int 0) _ 0).1
    · cases r with
      | lit v => exact Or.inl rfl
      | ref n =>
        right; refine ⟨n, rfl, ?_⟩
        cases hn : AMap.get attrs n with
        | some v => simp [Operand.value, hn]
        | none => simp only [Operand.value, hn] at h; exact absurd h (other op _ (.int 0) 0).2
  · rintro ⟨a, b, hl, hr, h⟩
    have e1 : l.value attrs = a := by
      rcases hl with rfl | ⟨n, rfl, hn⟩
      · rfl
      · simp [Operand.value, hn]
    have e2 : r.value attrs = b := by
      rcases hr with rfl | ⟨n, rfl, hn⟩
      · rfl
      · simp [Operand.value, hn]
    rw [e1, e2]; exact h

example : holds .le (.int 3) (.int 3) ∧ ¬ holds .lt (.int 3) (.int 3) := by
  simp [holds, comparable, less]
example : (Cond.ifeval (.ref "n") .gt (.lit (.int 2))).eval [("n", .int 3)] = true := by decide

/-- **Finding.** A value declared in the document is text (`:level: 3` declares the string "3"), so
comparing it with a number literal is false for every operator, including `!=`. -/
theorem finding_document_attributes_never_compare_to_numbers (attrs : AMap Val) (n : String) (s : Text)
    (h : AMap.get attrs n = some (.str s)) (op : CmpOp) (i : Int) :
    (Cond.ifeval (.ref n) op (.lit (.int i))).eval attrs = false := by
  simp only [Cond.eval, Operand.value, h]
  cases op <;> rfl

end Verif.C35
