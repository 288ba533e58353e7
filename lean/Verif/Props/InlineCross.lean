import Verif.Props.InlineLoop
import Verif.Props.ListItems
import Verif.Props.HeaderParse

/-!
# C70 — References: how they are read
-/
namespace Verif
namespace C65
open Peg Grammar Actions PlainText Inlined
open Walk (Any)
open Subs (Sub)
open C58 (span_append split_while)

variable {σ : Type} {S : Sem σ} {A : Peg.Code σ} {E : List Sub} {f : σ → Option Char} {t w next st : Text} {c : Char} {x : Option Char}

/-- A literal, in front of the rest. -/
theorem lit_exactly {l u : Text} (hl : matchLit l (l ++ u) = some u) : Exactly grammar S A st (.lit l) (l ++ u) [.text l] u := by
  have := Peg.exactly_lit (G := grammar) (S := S) (A := A) (st := st) hl
  rwa [span_append] at this

theorem pred_on (h : Inl S A E f) {id : Nat} {s : Sub} (hg : (id, s) ∈ guards) (hs : s ∈ E) : Exactly grammar S A st (.pred id) t [.nil] t :=
  exactly_pred (fun x => (h.enabled _ hg x st t).trans (decide_eq_true hs))

/-- Characters of a class, up to one that is not. -/
theorem yields_class {k : Cls} {d : Char} (hw : w ≠ []) (hk : ∀ c ∈ w, k.has S.letter S.number c = true) (hd : k.has S.letter S.number d = false) :
    Yields grammar S (.plus (.cls k)) (w ++ d :: t) (some (d :: t)) := by
  obtain ⟨c, w, rfl⟩ := List.exists_cons_of_ne_nil hw
  have := C58.yields_plus_class (S := S) (t := w ++ d :: t) (hk c List.mem_cons_self)
  have e : (c :: (w ++ d :: t)).dropWhile (k.has S.letter S.number) = d :: t := by
    rw [show c :: (w ++ d :: t) = (c :: w) ++ d :: t from rfl, List.dropWhile_append_of_pos hk, List.dropWhile_cons_of_neg (by simp [hd])]
  rw [e] at this
  exact this

def idClass : Cls := ⟨true, ['[', ']', '<', '>', ','], [], false, false⟩

theorem has_id (c : Char) : idClass.has S.letter S.number c = !['[', ']', '<', '>', ','].contains c := by
  simp [idClass, Cls.has]

theorem yields_Id {id : Text} {d : Char} (hid : id ≠ []) (hc : ∀ c ∈ id, c ∉ ['[', ']', '<', '>', ',']) (hd : d ∈ ['[', ']', '<', '>', ',']) :
    Yields grammar S (.plus (.cls idClass)) (id ++ d :: t) (some (d :: t)) := by
  refine yields_class hid (fun c hm => ?_) ?_
  · rw [has_id]; simpa using hc c hm
  · rw [has_id, List.contains_iff_mem.mpr hd]; rfl

/-- The identifier of a reference, up to `d`. -/
theorem exactly_Id (h : Inl S A E f) {id : Text} {d : Char} (hid : id ≠ []) (hc : ∀ c ∈ id, c ∉ ['[', ']', '<', '>', ',']) (hd : d ∈ ['[', ']', '<', '>', ',']) :
    Exactly grammar S A st (.rule R.Id) (id ++ d :: t) [.text id] (d :: t) := by
  refine exactly_rule (exactly_of_yields (yields_Id hid hc hd) (fun s v => ?_))
  rw [span_append]; exact h.obeys 454 s v id _ rfl

theorem label_Id (h : Inl S A E f) {id : Text} (hid : id ≠ []) (hc : ∀ c ∈ id, c ∉ ['[', ']', '<', '>', ',']) : reduce (.text id) = .text id := if_neg hid

/-- The label of a reference. -/
theorem exactly_label (h : Inl S A E f) {l : Text} (hl : LabelOk S.letter S.number l) :
    Exactly grammar S A st (.rule R.CrossReferenceLabel) (l ++ '>' :: t) [.slice [.str l]] ('>' :: t) := by
  obtain ⟨c, r, rfl, hr, hc, hd⟩ := hl
  have stop : Never grammar S (.alt (.act 115 (.scope (.seq (.cls ⟨false, [], [], true, true⟩) (.plus (.cls ⟨true, ['\r', '\n',
    '{', '<', '>'], [], false, false⟩))))) (.alt (.rule R.AttributeReferenceValue) (.act 116 (.lit ['{'])))) ('>' :: t) := by
    refine yields_alt_right ?_ (yields_alt_right ?_ ?_)
    · obtain ⟨e1, e2⟩ := h.ascii '>' (by decide)
      refine yields_act (yields_scope (never_seq (yields_cls_no ?_)))
      rw [show Cls.has _ _ _ _ = (S.letter '>' || S.number '>') by simp [Cls.has], e1, e2]; decide
    · refine begins_never (F := [['{'], ['\\']]) ?_ 40 (.rule R.AttributeReferenceValue) (by decide +kernel)
      intro m hm hp
      obtain ⟨z, hz⟩ := hp
      rcases List.mem_cons.mp hm with rfl | hm
      · exact absurd (List.cons.inj hz).1 (by decide)
      · rw [List.mem_singleton.mp hm] at hz
        exact absurd (List.cons.inj hz).1 (by decide)
    · exact yields_act (yields_lit.to rfl)
  refine exactly_rule (exactly_plus (v := [.str (c :: r)]) (vs := []) (exactly_alt_left (exactly_of_yields (y := .str (c :: r)) (u := '>' :: t) ?_ (fun s v => ?_))) (exactly_star_stop stop))
  · refine yields_scope (yields_seq (yields_cls ?_) (yields_class hr (fun d hm => ?_) ?_))
    · rcases hc with hc | hc <;> simp [Cls.has, hc]
    · simpa [Cls.has] using hd d hm
    · simp [Cls.has]
  · rw [span_append]; exact h.obeys 115 s v _ _ rfl

/-- A reference. -/
theorem exactly_reference (h : Inl S A E f) {id : Text} {l : Option Text} (hid : id ≠ []) (hc : ∀ c ∈ id, c ∉ ['[', ']', '<', '>', ','])
    (hl : ∀ t ∈ l, LabelOk S.letter S.number t) : Exactly grammar S A st (.rule R.InternalCrossReference) ((Inlined.Piece.ref id l).written ++ next) [cross id l] next := by
  refine exactly_rule ?_
  cases l with
  | none =>
    have e : (Inlined.Piece.ref id none).written ++ next = ['<', '<'] ++ (id ++ '>' :: '>' :: next) := by simp [Inlined.Piece.written]
    rw [e]
    refine exactly_alt_right ?_ (exactly_act (exactly_scope (exactly_seq (lit_exactly rfl) (exactly_seq (exactly_Id h hid hc (by decide)) (lit_exactly (l := ['>', '>']) rfl)))) (fun s => ?_))
    · have hs : Never grammar S (.rule R.Space) ('>' :: '>' :: next) := never_Space (by decide)
      exact yields_act (yields_scope (yields_seq (u := id ++ '>' :: '>' :: next) (yields_lit.to rfl) (yields_seq (yields_rule (yields_act (yields_Id hid hc (by decide))))
        (yields_seq (yields_star_stop hs) (never_seq (yields_lit.to rfl))))))
    · refine (h.obeys 113 s _ _ _ rfl).trans ?_
      unfold newCross
      rw [label_Id h hid hc]; rfl
  | some l =>
    have e : (Inlined.Piece.ref id (some l)).written ++ next = ['<', '<'] ++ (id ++ ',' :: (l ++ '>' :: '>' :: next)) := by simp [Inlined.Piece.written]
    rw [e]
    have hs : Never grammar S (.rule R.Space) (',' :: (l ++ '>' :: '>' :: next)) := never_Space (by decide)
    refine exactly_alt_left (exactly_act (exactly_scope (exactly_seq (lit_exactly rfl) (exactly_seq (exactly_Id h hid hc (by decide)) (exactly_seq (exactly_star_stop hs)
      (exactly_seq (lit_exactly (l := [',']) rfl) (exactly_seq (exactly_label h (hl l rfl)) (lit_exactly (l := ['>', '>']) rfl))))))) (fun s => ?_))
    refine (h.obeys 112 s _ _ _ rfl).trans ?_
    unfold newCross
    rw [label_Id h hid hc]
    obtain ⟨c, r, rfl, _⟩ := hl l rfl
    rfl

/-- A reference, among the macros. -/
theorem exactly_macro (h : Inl S A E f) {id : Text} {l : Option Text} (hid : id ≠ []) (hc : ∀ c ∈ id, c ∉ ['[', ']', '<', '>', ','])
    (hl : ∀ t ∈ l, LabelOk S.letter S.number t) (ht : Quiet ((Inlined.Piece.ref id l).written ++ next)) :
    Exactly grammar S A st (.rule R.InlineMacro) ((Inlined.Piece.ref id l).written ++ next) [cross id l] next := by
  refine exactly_rule ?_
  have key : Exactly grammar S A ((Inlined.Piece.ref id l).written ++ next) (.scope (.seq (.pred 374) (.alt (.rule R.InlineIcon) (.alt (.rule R.InlineImage) (.alt (.rule
    R.Link) (.alt (.rule R.InlinePassthrough) (.alt (.rule R.InlineFootnote) (.alt (.rule R.CrossReference)
    (.alt (.rule R.InlineUserMacro) (.alt (.rule R.InlineAnchor) (.alt (.rule R.ConcealedIndexTerm) (.alt
    (.rule R.IndexTerm) (.alt (.rule R.InlineButton) (.rule R.InlineMenu)))))))))))))) ((Inlined.Piece.ref id l).written ++ next) [.slice [.nil, cross id l]] next := by
    refine exactly_scope (exactly_seq (v := [.nil]) (pred_on h (by decide) h.macros) ?_)
    refine exactly_alt_right (never_macro h ht (by decide)) (exactly_alt_right (never_macro h ht (by decide)) (exactly_alt_right (never_macro h ht (by decide))
      (exactly_alt_right (never_InlinePassthrough h ht) (exactly_alt_right (never_macro h ht (by decide)) (exactly_alt_left
      (exactly_rule (exactly_alt_left (exactly_reference h hid hc hl))))))))
  exact exactly_act key (fun s => h.obeys 375 s _ _ _ rfl)

theorem ref_head {id : Text} {l : Option Text} : ∃ w, (Inlined.Piece.ref id l).written = '<' :: '<' :: w := by
  cases l with
  | none => exact ⟨id ++ ">>".toList, by simp [Inlined.Piece.written]⟩
  | some l => exact ⟨id ++ ',' :: l ++ ">>".toList, by simp [Inlined.Piece.written]⟩

/-- A reference, among the elements. -/
theorem exactly_ref (h : Inl S A E f) {pl : Place} {id : Text} {l : Option Text} (hid : id ≠ []) (hc : ∀ c ∈ id, c ∉ ['[', ']', '<', '>', ','])
    (hl : ∀ t ∈ l, LabelOk S.letter S.number t) (ht : Quiet ((Inlined.Piece.ref id l).written ++ next)) :
    Exactly grammar S A st pl.alts ((Inlined.Piece.ref id l).written ++ next) [cross id l] next := by
  have hm : ∀ st, Exactly grammar S A st (.rule R.InlineMacro) _ _ _ := fun st => exactly_macro (st := st) h hid hc hl ht
  obtain ⟨w, hw⟩ := ref_head (id := id) (l := l)
  rw [hw] at hm ht ⊢
  replace hm : ∀ st, Exactly grammar S A st (.rule R.InlineMacro) ('<' :: '<' :: (w ++ next)) [cross id l] next := hm
  replace ht : Quiet ('<' :: '<' :: (w ++ next)) := ht
  show Exactly grammar S A st pl.alts ('<' :: '<' :: (w ++ next)) [cross id l] next
  have hs : '<' ∈ starters := by decide
  have hq : '<' ∉ quoting := by decide
  have hr : ∀ m ∈ replacing, ¬ m <+: '<' :: '<' :: (w ++ next) := by
    have h1 : ∀ m ∈ replacing, m.take 2 ≠ ['<', '<'] ∧ m ≠ [] ∧ m ≠ ['<'] := by decide +kernel
    rintro m hm ⟨z, hz⟩
    obtain ⟨a, b, d⟩ := h1 m hm
    cases m with
    | nil => exact b rfl
    | cons m1 m =>
      have e1 : m1 = '<' := (List.cons.inj hz).1
      cases m with
      | nil => exact d (by rw [e1])
      | cons m2 m =>
        have e2 : m2 = '<' := (List.cons.inj (List.cons.inj hz).2).1
        exact a (by rw [e1, e2]; rfl)
  have quoted : ∀ st, Exactly grammar S A st (.rule R.QuotedTextElement) ('<' :: '<' :: (w ++ next)) [cross id l] next := fun st => by
    refine exactly_rule ?_
    refine exactly_alt_right (never_InlineText h hs) (exactly_alt_right (never_Spaces h hs) (exactly_alt_right (never_Replacement hr)
      (exactly_alt_right (never_TypographicQuote hr) (exactly_alt_right (C58.never_Punctuation (by decide)) (exactly_alt_right (never_AttributeReference h ht)
      (exactly_alt_right (never_singleNewline h hs) (exactly_alt_right (never_QuotedText hq) (exactly_alt_left (hm _)))))))))
  cases pl with
  | once m => exact quoted _
  | twice m => exact quoted _
  | normal =>
    exact exactly_alt_right (never_InlineText h hs) (exactly_alt_right (never_Spaces h hs) (exactly_alt_right (never_Replacement hr)
      (exactly_alt_right (never_TypographicQuote hr) (exactly_alt_right (C58.never_Punctuation (by decide)) (exactly_alt_right (never_newline h hs)
      (exactly_alt_right (never_AttributeReference h ht) (exactly_alt_right (never_Quote hq) (exactly_alt_left (hm _)))))))))

end C65
end Verif
