import Verif.Props.InlineText

/-!
# C65 — Inline markup: the elements of a text and of text between marks
-/
namespace Verif
namespace C65
open Peg Grammar Actions PlainText Inlined
open Walk (Any)
open Subs (Sub)
open C58 (span_append pred_off)

variable {σ : Type} {S : Sem σ} {A : Peg.Code σ} {E : List Sub} {f : σ → Option Char} {t w next : Text} {c : Char} {x : Option Char}

/-- Where the elements are: in a text (`NormalGroup`), or between marks. -/
inductive Place where
  | normal
  | once (m : Mark)
  | twice (m : Mark)

/-- parser.peg:1913-1919, 2003-2009, 2095-2101 and 2184-2190 -/
def onceRule : Mark → Nat
  | .bold => R.SingleQuoteBoldTextElement
  | .italic => R.SingleQuoteItalicTextElement
  | .mono => R.SingleQuoteMonospaceTextElement
  | .highlight => R.SingleQuoteMarkedTextElement

/-- parser.peg:1884-1890, 1973-1979, 2064-2070 and 2155-2161 -/
def twiceRule : Mark → Nat
  | .bold => R.DoubleQuoteBoldTextElement
  | .italic => R.DoubleQuoteItalicTextElement
  | .mono => R.DoubleQuoteMonospaceTextElement
  | .highlight => R.DoubleQuoteMarkedTextElement

def onceEnd : Mark → Nat
  | .bold => R.SingleQuoteBoldTextEndDelimiter
  | .italic => R.SingleQuoteItalicTextEndDelimiter
  | .mono => R.SingleQuoteMonospaceTextEndDelimiter
  | .highlight => R.SingleQuoteMarkedTextEndDelimiter

def twiceEnd : Mark → Nat
  | .bold => R.DoubleQuoteBoldTextEndDelimiter
  | .italic => R.DoubleQuoteItalicTextEndDelimiter
  | .mono => R.DoubleQuoteMonospaceTextEndDelimiter
  | .highlight => R.DoubleQuoteMarkedTextEndDelimiter

def onceAct : Mark → Nat
  | .bold => 318
  | .italic => 329
  | .mono => 340
  | .highlight => 351

def twiceAct : Mark → Nat
  | .bold => 312
  | .italic => 323
  | .mono => 334
  | .highlight => 345

/-- The elements that are repeated. -/
def Place.body : Place → Exp
  | .normal => .act 370 (.scope (.seq (.rule R.NotEOF) C58.normalElement))
  | .once m => .rule (onceRule m)
  | .twice m => .rule (twiceRule m)

/-- One of several kinds of elements. -/
def Place.alts : Place → Exp
  | .normal => C58.normalElement
  | _ => .rule R.QuotedTextElement

def Place.ends : Place → Option Exp
  | .normal => none
  | .once m => some (.rule (onceEnd m))
  | .twice m => some (.rule (twiceEnd m))

def Place.mark : Place → Option Mark
  | .normal => none
  | .once m => some m
  | .twice m => some m

theorem once_body (m : Mark) : grammar (onceRule m) =
    .act (onceAct m) (.scope (.seq (.rule R.NotEOF) (.seq (.notP (.rule (onceEnd m))) (.rule R.QuotedTextElement)))) := by cases m <;> rfl

theorem twice_body (m : Mark) : grammar (twiceRule m) =
    .act (twiceAct m) (.scope (.seq (.rule R.NotEOF) (.seq (.notP (.rule (twiceEnd m))) (.rule R.QuotedTextElement)))) := by cases m <;> rfl

theorem Inl.lasting (h : Inl S A E f) : Lasting S f := h.tracks.restore

theorem notEOF_holds (h : Inl S A E f) {st : Text} : Holds grammar S A f x st (.rule R.NotEOF) (c :: t) (fun o y => y = x ∧ o = some ([.nil], c :: t)) := by
  refine holds_rule (holds_andP (P := fun o y => y = x ∧ o ≠ none) h.lasting ?_ (fun y hy => absurd rfl hy.2) (fun p y hy => ⟨hy.1, rfl⟩))
  intro s r hs hr
  have hk := hr.erase
  obtain ⟨n, hn⟩ := hr
  cases n with
  | zero => cases hn
  | succ n => cases hn; exact ⟨hs, by simp [ResV.out]⟩

/-- The end of the place is not here. -/
def Unended (S : Sem σ) (A : Peg.Code σ) (f : σ → Option Char) (pl : Place) (x : Option Char) (t : Text) : Prop :=
  ∀ e ∈ pl.ends, ∀ st, Holds grammar S A f x st e t (fun o y => y = x ∧ o = none)

/-- The end of the place is here. -/
def Ended (S : Sem σ) (A : Peg.Code σ) (f : σ → Option Char) (pl : Place) (x : Option Char) (t : Text) : Prop :=
  (pl.ends = none → t = []) ∧ ∀ e ∈ pl.ends, ∀ st, Holds grammar S A f x st e t (fun o y => y = x ∧ o ≠ none)

/-- One element. -/
theorem element_holds (h : Inl S A E f) {pl : Place} {st : Text} {V : Any → Text → Prop} (hu : Unended S A f pl x (c :: t))
    (he : Holds grammar S A f x (c :: t) pl.alts (c :: t) (fun o _ => ∃ v u, o = some ([v], u) ∧ V v u)) :
    Holds grammar S A f x st pl.body (c :: t) (fun o y => ∃ v u, o = some ([v], u) ∧ V v u ∧ y = (span (c :: t) u).getLast?.map Actions.lastByte) := by
  have marked : ∀ {act fin : Nat}, act ∈ tracking → (∀ a b v t, code act [.slice [a, b, v]] t = some v) →
      (∀ st, Holds grammar S A f x st (.rule fin) (c :: t) (fun o y => y = x ∧ o = none)) →
      Holds grammar S A f x (c :: t) (.rule R.QuotedTextElement) (c :: t) (fun o _ => ∃ v u, o = some ([v], u) ∧ V v u) → ∀ st,
      Holds grammar S A f x st (.act act (.scope (.seq (.rule R.NotEOF) (.seq (.notP (.rule fin)) (.rule R.QuotedTextElement))))) (c :: t)
        (fun o y => ∃ v u, o = some ([v], u) ∧ V v u ∧ y = (span (c :: t) u).getLast?.map Actions.lastByte) := by
    intro act fin hact hcode hfin he st
    refine holds_act (P := fun o _ => ∃ v u, o = some ([.slice [.nil, .nil, v]], u) ∧ V v u) (holds_scope h.lasting (holds_seq (notEOF_holds h)
      (fun y hy => nomatch hy.2) ?_)) ?_ ?_
    · rintro v u y ⟨rfl, hv⟩
      cases hv
      refine holds_seq (P := fun o z => z = y ∧ o = some ([.nil], c :: t)) (holds_notP h.lasting (hfin _) (fun z hz => ⟨hz.1, rfl⟩) (fun p z hz => nomatch hz.2))
        (fun z hz => nomatch hz.2) ?_
      rintro v u z ⟨rfl, hv⟩
      cases hv
      refine he.mono ?_
      rintro o z ⟨v, u, rfl, hV⟩
      exact ⟨v, u, rfl, hV⟩
    · rintro y ⟨v, u, hv, _⟩; cases hv
    · rintro s v u ⟨v', u', hv, hV⟩
      cases hv
      refine ⟨v', u, ?_, hV, h.tracks.set _ _ _ _ hact⟩
      rw [h.obeys act s _ _ _ (hcode _ _ _ _)]
  cases pl with
  | normal =>
    refine holds_act (P := fun o _ => ∃ v u, o = some ([.slice [.nil, v]], u) ∧ V v u) (holds_scope h.lasting (holds_seq (notEOF_holds h)
      (fun y hy => nomatch hy.2) ?_)) ?_ ?_
    · rintro v u y ⟨rfl, hv⟩
      cases hv
      refine he.mono ?_
      rintro o z ⟨v, u, rfl, hV⟩
      exact ⟨v, u, rfl, hV⟩
    · rintro y ⟨v, u, hv, _⟩; cases hv
    · rintro s v u ⟨v', u', hv, hV⟩
      cases hv
      refine ⟨v', u, ?_, hV, h.tracks.set _ _ _ _ (by decide)⟩
      rw [h.obeys 370 s _ _ _ rfl]
  | once m =>
    refine holds_rule ?_
    rw [once_body]
    exact marked (act := onceAct m) (by cases m <;> decide) (by cases m <;> exact fun _ _ _ _ => rfl) (fun st => hu _ rfl st) he _
  | twice m =>
    refine holds_rule ?_
    rw [twice_body]
    exact marked (act := twiceAct m) (by cases m <;> decide) (by cases m <;> exact fun _ _ _ _ => rfl) (fun st => hu _ rfl st) he _

/-- No element, at the end. -/
theorem element_stops (h : Inl S A E f) {pl : Place} {st : Text} (hu : Ended S A f pl x t) :
    Holds grammar S A f x st pl.body t (fun o y => y = x ∧ o = none) := by
  have nil : ∀ {st : Text} {e : Exp} {id : Nat}, Holds grammar S A f x st (.act id (.scope (.seq (.rule R.NotEOF) e))) [] (fun o y => y = x ∧ o = none) := by
    intro st e id
    refine holds_act (P := fun o y => y = x ∧ o = none) (holds_scope h.lasting (holds_seq (P := fun o y => y = x ∧ o = none) ?_ (fun y hy => ⟨hy.1, rfl⟩)
      (fun v u y hy => nomatch hy.2))) (fun y hy => hy) (fun s v u hv => nomatch hv.2)
    refine holds_rule (holds_andP (P := fun o y => y = x ∧ o = none) h.lasting ?_ (fun y hy => hy) (fun p y hy => nomatch hy.2))
    rintro s r hs ⟨n, hn⟩
    cases n with
    | zero => cases hn
    | succ n => cases hn; exact ⟨hs, rfl⟩
  have marked : ∀ {act fin : Nat}, (∀ st, Holds grammar S A f x st (.rule fin) t (fun o y => y = x ∧ o ≠ none)) → ∀ st,
      Holds grammar S A f x st (.act act (.scope (.seq (.rule R.NotEOF) (.seq (.notP (.rule fin)) (.rule R.QuotedTextElement))))) t (fun o y => y = x ∧ o = none) := by
    intro act fin hfin st
    cases t with
    | nil => exact nil
    | cons c t =>
      refine holds_act (P := fun o y => y = x ∧ o = none) (holds_scope h.lasting (holds_seq (notEOF_holds h) (fun y hy => nomatch hy.2) ?_)) (fun y hy => hy)
        (fun s v u hv => nomatch hv.2)
      rintro v u y ⟨rfl, hv⟩
      cases hv
      refine holds_seq (P := fun o z => z = y ∧ o = none) (holds_notP h.lasting (hfin _) (fun z hz => absurd rfl hz.2) (fun p z hz => ⟨hz.1, rfl⟩))
        (fun z hz => ⟨hz.1, rfl⟩) (fun v u y hy => nomatch hy.2)
  cases pl with
  | normal => rw [hu.1 rfl]; exact nil
  | once m => refine holds_rule ?_; rw [once_body]; exact marked (fun st => hu.2 _ rfl st) _
  | twice m => refine holds_rule ?_; rw [twice_body]; exact marked (fun st => hu.2 _ rfl st) _

end C65
end Verif
