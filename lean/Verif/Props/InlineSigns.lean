import Verif.Props.InlinePlaces
import Verif.Props.InlineValues
import Verif.Props.Blocks

/-!
# C65 — Inline markup: signs, and what comes before marks
-/
namespace Verif
namespace C65
open Peg Grammar Actions PlainText Inlined
open Walk (Any)
open Subs (Sub)
open C58 (span_append pred_off)

variable {σ : Type} {S : Sem σ} {A : Peg.Code σ} {E : List Sub} {f : σ → Option Char} {t w next : Text} {c : Char} {x : Option Char}

/-- Rules without an action that tracks elements. -/
def untracked : List Nat := [R.InlineText, R.Spaces, R.Replacement, R.TypographicQuote, R.Punctuation, R.Newline, R.AttributeReference, R.SingleNewline, R.Space,
  R.SingleQuoteBoldTextStartDelimiter, R.SingleQuoteBoldTextEndDelimiter, R.SingleQuoteItalicTextStartDelimiter, R.SingleQuoteItalicTextEndDelimiter,
  R.SingleQuoteMonospaceTextStartDelimiter, R.SingleQuoteMonospaceTextEndDelimiter, R.SingleQuoteMarkedTextStartDelimiter, R.SingleQuoteMarkedTextEndDelimiter,
  R.DoubleQuoteBoldTextEndDelimiter, R.DoubleQuoteItalicTextEndDelimiter, R.DoubleQuoteMonospaceTextEndDelimiter, R.DoubleQuoteMarkedTextEndDelimiter,
  R.Symbol, R.AttributeReferenceValue, R.CounterReference, R.Alphanum, R.QuotationMark, R.Copyright, R.Trademark, R.Registered, R.Ellipsis,
  R.SingleRightArrow, R.Mdash, R.SingleLeftArrow, R.DoubleRightArrow, R.DoubleLeftArrow, R.AttributeName, R.CounterSubstitution1, R.CounterSubstitution2,
  R.EOL, R.CounterStart, R.EOF]

theorem untracked_quiet : ∀ i ∈ untracked, quiet tracking (fun i => untracked.contains i) (grammar i) = true := by decide +kernel

theorem still_of (h : Inl S A E f) {e : Exp} (he : quiet tracking (fun i => untracked.contains i) e = true) : Still grammar S f e := by
  rintro st s t r ⟨n, hr⟩
  refine run_keeps f tracking (fun i => untracked.contains i) (fun i hi => untracked_quiet i (by simpa using hi)) (fun _ _ _ _ _ => h.tracks.pred _ _ _ _)
    (fun _ _ _ _ _ => h.tracks.state _ _ _ _) (fun _ _ _ _ hid => h.tracks.act _ _ _ _ hid) (fun a b hab => ?_) n e st s t r he hr
  rw [h.tracks.restore, hab]

theorem still (h : Inl S A E f) {i : Nat} (hi : i ∈ untracked) : Still grammar S f (.rule i) := still_of h (by simpa [quiet] using hi)

/-- An alternative that does not match, nor changes the view. -/
theorem holds_skip (h : Inl S A E f) {a b : Exp} {st : Text} {Q : Option (List Any × Text) → Option Char → Prop}
    (ha : Holds grammar S A f x st a t (fun o y => y = x ∧ o = none)) (hb : Holds grammar S A f x st b t Q) : Holds grammar S A f x st (.alt a b) t Q := by
  refine holds_alt h.lasting ha (fun p y hy => nomatch hy.2) ?_
  rintro y ⟨rfl, _⟩
  exact hb

theorem holds_never (h : Inl S A E f) {i : Nat} {b : Exp} {st : Text} {Q : Option (List Any × Text) → Option Char → Prop}
    (ha : Never grammar S (.rule i) t) (hi : i ∈ untracked) (hb : Holds grammar S A f x st b t Q) : Holds grammar S A f x st (.alt (.rule i) b) t Q :=
  holds_skip h (ha.holds (still h hi)) hb

theorem _root_.Verif.Peg.Exactly.holds {st : Text} {e : Exp} {v : List Any} {u : Text} (h : Exactly grammar S A st e t v u) :
    Holds grammar S A f x st e t (fun o _ => o = some (v, u)) := fun _ _ _ hr => h _ _ hr

/-- The first of alternatives. -/
theorem holds_first (h : Inl S A E f) {a b : Exp} {st : Text} {Q : Option (List Any × Text) → Option Char → Prop} (ha : Holds grammar S A f x st a t Q)
    (hn : ∀ y, ¬ Q none y) : Holds grammar S A f x st (.alt a b) t Q :=
  holds_alt h.lasting ha (fun _ _ h => h) (fun y hy => absurd hy (hn y))

/-! ### Rules that do not match at signs and marks -/

/-- Characters at which there is neither text nor a space. -/
def starters : List Char := ['*', '_', '`', '#', '^', '~', '(', '.', '-', '<', '=', '"', '\'']

theorem starter_class (h : Inl S A E f) (hc : c ∈ starters) : S.letter c = false ∧ S.number c = false ∧ isBlank c = false ∧ isEol c = false ∧ c ≠ '\\' := by
  have h1 : ∀ c ∈ starters, c.toNat < 128 ∧ c.isAlpha = false ∧ c.isDigit = false ∧ isBlank c = false ∧ isEol c = false ∧ c ≠ '\\' := by decide
  obtain ⟨a, b1, b2, b3, b4, b5⟩ := h1 c hc
  obtain ⟨e1, e2⟩ := h.ascii c a
  exact ⟨e1.trans b1, e2.trans b2, b3, b4, b5⟩

theorem never_InlineText (h : Inl S A E f) (hc : c ∈ starters) : Never grammar S (.rule R.InlineText) (c :: t) := by
  obtain ⟨h1, h2, _⟩ := starter_class h hc
  exact yields_rule (yields_act (yields_scope (never_seq (yields_act (C58.never_plus_class (by simp [Cls.has, h1, h2]))))))

theorem never_Spaces (h : Inl S A E f) (hc : c ∈ starters) : Never grammar S (.rule R.Spaces) (c :: t) := by
  obtain ⟨_, _, h1, _⟩ := starter_class h hc
  exact yields_rule (yields_act (C58.never_plus_class ((has_blank (S := S) c).trans h1)))

theorem never_newline (h : Inl S A E f) (hc : c ∈ starters) : Never grammar S (.rule R.Newline) (c :: t) := by
  obtain ⟨_, _, _, h1, _⟩ := starter_class h hc
  simp only [isEol, Bool.or_eq_false_iff, beq_eq_false_iff_ne] at h1
  refine yields_Newline.to ?_
  rw [newline_lit]; simp [matchLit, Ne.symm h1.1, Ne.symm h1.2]

theorem never_singleNewline (h : Inl S A E f) (hc : c ∈ starters) : Never grammar S (.rule R.SingleNewline) (c :: t) :=
  yields_rule (yields_act (yields_scope (never_seq (never_newline h hc))))

/-- The characters of marks. -/
def marking : List Char := ['*', '_', '`', '#', '^', '~']

theorem never_Punctuation (h : Inl S A E f) (hc : c ∈ marking) : Never grammar S (.rule R.Punctuation) (c :: t) := by
  have hne : ∀ d : Char, d ∉ marking → Never grammar S (.lit [d]) (c :: t) := by
    intro d hd
    refine yields_lit.to ?_
    have : d ≠ c := fun e => hd (e ▸ hc)
    simp [matchLit, this]
  refine yields_rule (yields_act (yields_alt_right (yields_cls_no ?_) (yields_alt_right (yields_alt_right (yields_scope (C49.never_after
    (fun _ _ _ _ h => C49.pred_stays h) (hne '[' (by decide)))) (hne ']' (by decide))) (yields_alt_right (yields_scope (never_seq (never_pred fun s st => h.marksOff s st _)))
    (yields_scope (never_seq (hne '(' (by decide))))))))
  simp only [marking, List.mem_cons, List.not_mem_nil, or_false] at hc
  rcases hc with rfl | rfl | rfl | rfl | rfl | rfl <;> rfl

theorem marking_starters (hc : c ∈ marking) : c ∈ starters := by
  have : ∀ d ∈ marking, d ∈ starters := by decide
  exact this c hc

/-- Before quoted text. -/
theorem to_quoted (h : Inl S A E f) {pl : Place} {V : Any → Text → Prop} (hc : c ∈ marking) (hm : ∀ m ∈ replacing, ¬ m <+: c :: t) (ht : Quiet (c :: t))
    (hq : ∀ st, Holds grammar S A f x st (.rule R.QuotedText) (c :: t) (fun o _ => ∃ v u, o = some ([v], u) ∧ V v u ∧ V (.slice [.nil, v]) u)) :
    Holds grammar S A f x (c :: t) pl.alts (c :: t) (fun o _ => ∃ v u, o = some ([v], u) ∧ V v u) := by
  have hs := marking_starters hc
  have quoted : Holds grammar S A f x (c :: t) (.rule R.QuotedTextElement) (c :: t) (fun o _ => ∃ v u, o = some ([v], u) ∧ V v u) := by
    refine holds_rule ?_
    refine holds_never h (never_InlineText h hs) (by decide) ?_
    refine holds_never h (never_Spaces h hs) (by decide) ?_
    refine holds_never h (never_Replacement hm) (by decide) ?_
    refine holds_never h (never_TypographicQuote hm) (by decide) ?_
    refine holds_never h (never_Punctuation h hc) (by decide) ?_
    refine holds_never h (never_AttributeReference h ht) (by decide) ?_
    refine holds_never h (never_singleNewline h hs) (by decide) ?_
    refine holds_first h ((hq _).mono ?_) (by rintro y ⟨v, u, hv, _⟩; cases hv)
    rintro o y ⟨v, u, h1, h2, _⟩
    exact ⟨v, u, h1, h2⟩
  cases pl with
  | once m => exact quoted
  | twice m => exact quoted
  | normal =>
    refine holds_never h (never_InlineText h hs) (by decide) ?_
    refine holds_never h (never_Spaces h hs) (by decide) ?_
    refine holds_never h (never_Replacement hm) (by decide) ?_
    refine holds_never h (never_TypographicQuote hm) (by decide) ?_
    refine holds_never h (never_Punctuation h hc) (by decide) ?_
    refine holds_never h (never_newline h hs) (by decide) ?_
    refine holds_never h (never_AttributeReference h ht) (by decide) ?_
    refine holds_first h (holds_rule (holds_scope h.lasting (holds_seq (P := fun o y => y = x ∧ o = some ([.nil], c :: t)) ?_ (fun y hy => nomatch hy.2) ?_)))
      (by rintro y ⟨v, u, hv, _⟩; cases hv)
    · refine (holds_pred (b := true) (fun s => h.tracks.pred _ _ _ _) (fun s _ => ?_)).mono (fun o y hy => hy)
      exact (h.enabled (378, .quotes) (by decide) _ _ _).trans (by simpa using h.quotes)
    · rintro v u y ⟨rfl, hv⟩
      cases hv
      refine (hq _).mono ?_
      rintro o y ⟨v, u, rfl, _, h3⟩
      exact ⟨_, u, rfl, h3⟩

/-! ### Signs -/

theorem no_tick (hn : next.head? ≠ some '`') : ∀ m ∈ [['`']], ¬ m <+: next := by
  intro m hm hp
  rw [List.mem_singleton.mp hm] at hp
  obtain ⟨z, hz⟩ := hp
  rw [← hz] at hn
  exact hn rfl

theorem never_monoStart (hn : next.head? ≠ some '`') : Never grammar S (.rule R.SingleQuoteMonospaceTextStartDelimiter) next :=
  begins_never (F := [['`']]) (no_tick hn) 40 _ (by decide +kernel)

theorem never_monoEnd (hn : next.head? ≠ some '`') : Never grammar S (.rule R.SingleQuoteMonospaceTextEndDelimiter) next :=
  begins_never (F := [['`']]) (no_tick hn) 40 _ (by decide +kernel)

theorem never_quotation (hc : c ∉ ['`', '"', '\'']) : Never grammar S (.rule R.QuotationMark) (c :: t) :=
  starts_never hc 10 _ (by decide +kernel)

theorem lit_first {l : List Char} {a d : Char} (h : a ≠ d) : Never grammar S (.lit (a :: l)) (d :: t) :=
  yields_lit.to (by simp [matchLit, h])

/-- The signs, but those which depend on what is before them. -/
theorem exactly_Symbol (h : Inl S A E f) {letter number : Char → Bool} (s : Sign) (hs : s ≠ .apostrophe ∧ s ≠ .dash) (hok : s.Ok letter number x next) {st : Text} :
    Exactly grammar S A st (.rule R.Symbol) (s.written ++ next) [.leaf (signLabel s)] next := by
  have lit : ∀ {id : Nat} {l : List Char} {v : Any} {u : Text}, (∀ a t, code id a t = some v) → matchLit l u = some next →
      ∀ {st}, Exactly grammar S A st (.act id (.lit l)) u [v] next := by
    intro id l v u hc hl st
    exact exactly_of_yields (yields_lit.to hl) (fun s a => h.obeys id s _ _ _ (hc _ _))
  have q : ∀ {id : Nat} {l : List Char} {v : Any} {u : Text} {i : Nat}, (∀ a t, code id a t = some v) → matchLit l u = some next →
      Never grammar S (.rule i) next → ∀ {st}, Exactly grammar S A st (.act id (.scope (.seq (.lit l) (.notP (.rule i))))) u [v] next := by
    intro id l v u i hc hl hn st
    exact exactly_of_yields (yields_scope (yields_seq (yields_lit.to hl) (yields_notP hn))) (fun s a => h.obeys id s _ _ _ (hc _ _))
  refine exactly_rule ?_
  cases s with
  | apostrophe => exact absurd rfl hs.1
  | dash => exact absurd rfl hs.2
  | copyright =>
    refine exactly_alt_right (yields_act (yields_scope (never_seq (lit_first (by decide))))) ?_
    refine exactly_alt_right (never_quotation (by decide)) ?_
    exact exactly_alt_left (exactly_rule (lit (fun _ _ => rfl) rfl))
  | trademark =>
    refine exactly_alt_right (yields_act (yields_scope (never_seq (lit_first (by decide))))) ?_
    refine exactly_alt_right (never_quotation (by decide)) ?_
    refine exactly_alt_right (yields_rule (yields_act (yields_lit.to rfl))) ?_
    exact exactly_alt_left (exactly_rule (lit (fun _ _ => rfl) rfl))
  | registered =>
    refine exactly_alt_right (yields_act (yields_scope (never_seq (lit_first (by decide))))) ?_
    refine exactly_alt_right (never_quotation (by decide)) ?_
    refine exactly_alt_right (yields_rule (yields_act (yields_lit.to rfl))) ?_
    refine exactly_alt_right (yields_rule (yields_act (yields_lit.to rfl))) ?_
    exact exactly_alt_left (exactly_rule (lit (fun _ _ => rfl) rfl))
  | ellipsis =>
    refine exactly_alt_right (yields_act (yields_scope (never_seq (lit_first (by decide))))) ?_
    refine exactly_alt_right (never_quotation (by decide)) ?_
    refine exactly_alt_right (yields_rule (yields_act (yields_lit.to rfl))) ?_
    refine exactly_alt_right (yields_rule (yields_act (yields_lit.to rfl))) ?_
    refine exactly_alt_right (yields_rule (yields_act (yields_lit.to rfl))) ?_
    exact exactly_alt_left (exactly_rule (lit (fun _ _ => rfl) rfl))
  | rightArrow =>
    refine exactly_alt_right (yields_act (yields_scope (never_seq (lit_first (by decide))))) ?_
    refine exactly_alt_right (never_quotation (by decide)) ?_
    refine exactly_alt_right (yields_rule (yields_act (yields_lit.to rfl))) ?_
    refine exactly_alt_right (yields_rule (yields_act (yields_lit.to rfl))) ?_
    refine exactly_alt_right (yields_rule (yields_act (yields_lit.to rfl))) ?_
    refine exactly_alt_right (yields_rule (yields_act (yields_lit.to rfl))) ?_
    refine exactly_alt_right (yields_rule (yields_alt_right (yields_act (yields_scope (never_seq (yields_lit.to rfl)))) (yields_act (yields_scope (never_seq (yields_lit.to rfl)))))) ?_
    exact exactly_alt_left (exactly_rule (lit (fun _ _ => rfl) rfl))
  | leftArrow =>
    refine exactly_alt_right (yields_act (yields_scope (never_seq (lit_first (by decide))))) ?_
    refine exactly_alt_right (never_quotation (by decide)) ?_
    refine exactly_alt_right (yields_rule (yields_act (yields_lit.to rfl))) ?_
    refine exactly_alt_right (yields_rule (yields_act (yields_lit.to rfl))) ?_
    refine exactly_alt_right (yields_rule (yields_act (yields_lit.to rfl))) ?_
    refine exactly_alt_right (yields_rule (yields_act (yields_lit.to rfl))) ?_
    refine exactly_alt_right (yields_rule (yields_alt_right (yields_act (yields_scope (never_seq (yields_lit.to rfl)))) (yields_act (yields_scope (never_seq (yields_lit.to rfl)))))) ?_
    refine exactly_alt_right (yields_rule (yields_act (yields_lit.to rfl))) ?_
    exact exactly_alt_left (exactly_rule (lit (fun _ _ => rfl) rfl))
  | doubleRightArrow =>
    refine exactly_alt_right (yields_act (yields_scope (never_seq (lit_first (by decide))))) ?_
    refine exactly_alt_right (never_quotation (by decide)) ?_
    refine exactly_alt_right (yields_rule (yields_act (yields_lit.to rfl))) ?_
    refine exactly_alt_right (yields_rule (yields_act (yields_lit.to rfl))) ?_
    refine exactly_alt_right (yields_rule (yields_act (yields_lit.to rfl))) ?_
    refine exactly_alt_right (yields_rule (yields_act (yields_lit.to rfl))) ?_
    refine exactly_alt_right (yields_rule (yields_alt_right (yields_act (yields_scope (never_seq (yields_lit.to rfl)))) (yields_act (yields_scope (never_seq (yields_lit.to rfl)))))) ?_
    refine exactly_alt_right (yields_rule (yields_act (yields_lit.to rfl))) ?_
    refine exactly_alt_right (yields_rule (yields_act (yields_lit.to rfl))) ?_
    exact exactly_alt_left (exactly_rule (lit (fun _ _ => rfl) rfl))
  | doubleLeftArrow =>
    refine exactly_alt_right (yields_act (yields_scope (never_seq (lit_first (by decide))))) ?_
    refine exactly_alt_right (never_quotation (by decide)) ?_
    refine exactly_alt_right (yields_rule (yields_act (yields_lit.to rfl))) ?_
    refine exactly_alt_right (yields_rule (yields_act (yields_lit.to rfl))) ?_
    refine exactly_alt_right (yields_rule (yields_act (yields_lit.to rfl))) ?_
    refine exactly_alt_right (yields_rule (yields_act (yields_lit.to rfl))) ?_
    refine exactly_alt_right (yields_rule (yields_alt_right (yields_act (yields_scope (never_seq (yields_lit.to rfl)))) (yields_act (yields_scope (never_seq (yields_lit.to rfl)))))) ?_
    refine exactly_alt_right (yields_rule (yields_act (yields_lit.to rfl))) ?_
    refine exactly_alt_right (yields_rule (yields_act (yields_lit.to rfl))) ?_
    refine exactly_alt_right (yields_rule (yields_act (yields_lit.to rfl))) ?_
    exact exactly_rule (lit (fun _ _ => rfl) rfl)
  | closeDouble =>
    refine exactly_alt_right (yields_act (yields_scope (never_seq (lit_first (by decide))))) ?_
    refine exactly_alt_left (exactly_rule ?_)
    exact exactly_alt_left (q (fun _ _ => rfl) rfl (never_monoStart hok))
  | openDouble =>
    refine exactly_alt_right (yields_act (yields_scope (never_seq (lit_first (by decide))))) ?_
    refine exactly_alt_left (exactly_rule ?_)
    refine exactly_alt_right (yields_act (yields_scope (never_seq (yields_lit.to rfl)))) ?_
    exact exactly_alt_left (q (fun _ _ => rfl) rfl (never_monoEnd hok))
  | closeSingle =>
    refine exactly_alt_right (yields_act (yields_scope (never_seq (lit_first (by decide))))) ?_
    refine exactly_alt_left (exactly_rule ?_)
    refine exactly_alt_right (yields_act (yields_scope (never_seq (yields_lit.to rfl)))) ?_
    refine exactly_alt_right (yields_act (yields_scope (never_seq (yields_lit.to rfl)))) ?_
    exact exactly_alt_left (q (fun _ _ => rfl) rfl (never_monoStart hok))
  | openSingle =>
    refine exactly_alt_right (yields_act (yields_scope (never_seq (lit_first (by decide))))) ?_
    refine exactly_alt_left (exactly_rule ?_)
    refine exactly_alt_right (yields_act (yields_scope (never_seq (yields_lit.to rfl)))) ?_
    refine exactly_alt_right (yields_act (yields_scope (never_seq (yields_lit.to rfl)))) ?_
    refine exactly_alt_right (yields_act (yields_scope (never_seq (yields_lit.to rfl)))) ?_
    exact q (fun _ _ => rfl) rfl (never_monoEnd hok)

theorem lit_holds (h : Inl S A E f) {l : List Char} {st u : Text} (hl : matchLit l t = some u) :
    Holds grammar S A f x st (.lit l) t (fun o y => y = x ∧ o = some ([.text (span t u)], u)) := by
  refine (Gives.holds gives_lit (still_of h rfl)).mono ?_
  rintro o y ⟨rfl, rfl⟩
  rw [hl]
  exact ⟨rfl, rfl⟩

theorem pred_holds (h : Inl S A E f) {id : Nat} {st : Text} {b : Bool} (hp : ∀ s, f s = x → (S.pred id s st t).1 = b) :
    Holds grammar S A f x st (.pred id) t (fun o y => y = x ∧ o = if b then some ([.nil], t) else none) :=
  holds_pred (fun _ => h.tracks.pred _ _ _ _) hp

/-- A dash between letters and numbers. -/
theorem dash_holds (h : Inl S A E f) (hw : wordBefore S.letter S.number x) (hn : ∃ c ∈ next.head?, S.letter c = true ∨ S.number c = true) {st : Text} :
    Holds grammar S A f x st (.rule R.Symbol) ('-' :: '-' :: next) (fun o _ => o = some ([.leaf (signLabel .dash)], next)) := by
  obtain ⟨b, rfl, hb, hg⟩ := hw
  refine holds_rule ?_
  refine holds_skip h (Never.holds (yields_act (yields_scope (never_seq (lit_first (by decide))))) (still_of h (by decide +kernel))) ?_
  refine holds_never h (never_quotation (by decide)) (by decide) ?_
  refine holds_never h (yields_rule (yields_act (yields_lit.to rfl))) (by decide) ?_
  refine holds_never h (yields_rule (yields_act (yields_lit.to rfl))) (by decide) ?_
  refine holds_never h (yields_rule (yields_act (yields_lit.to rfl))) (by decide) ?_
  refine holds_never h (yields_rule (yields_act (yields_lit.to rfl))) (by decide) ?_
  refine holds_first h (holds_rule ?_) (fun y hy => nomatch hy)
  refine holds_skip h (holds_act (P := fun o y => y = some b ∧ o = none) (holds_scope h.lasting (holds_seq (lit_holds h (u := next) rfl) (fun y hy => nomatch hy.2) ?_))
    (fun y hy => hy) (fun s v u hv => nomatch hv.2)) ?_
  · rintro v u y ⟨rfl, hv⟩
    cases hv
    refine holds_seq (P := fun o y => y = some b ∧ o = none) ?_ (fun y hy => ⟨hy.1, rfl⟩) (fun v u y hy => nomatch hy.2)
    refine (pred_holds (b := false) h (fun s hs => ?_)).mono (fun o y hy => hy)
    rw [h.tracks.spaced, hs]
    exact hg
  · refine holds_act (P := fun o _ => ∃ v, o = some (v, next)) (holds_scope h.lasting (holds_seq (lit_holds h (u := next) rfl) (fun y hy => nomatch hy.2) ?_))
      (fun y hy => by obtain ⟨v, hv⟩ := hy; cases hv) ?_
    · rintro v u y ⟨rfl, hv⟩
      cases hv
      refine holds_seq (P := fun o y => y = some b ∧ o = some ([.nil], next)) ?_ (fun y hy => nomatch hy.2) ?_
      · refine (pred_holds (b := true) h (fun s hs => ?_)).mono (fun o y hy => hy)
        rw [h.tracks.word _ _ _ _ (by decide), hs]
        rcases hb with hb | hb <;> simp [hb]
      · rintro v u y ⟨rfl, hv⟩
        cases hv
        obtain ⟨d, hd, hl⟩ := hn
        cases next with
        | nil => cases hd
        | cons e next =>
          cases hd
          have : Sure grammar S (.alt (.rule R.Alphanum) (.rule R.EOL)) (d :: next) :=
            sure_alt_left (sure_rule (yields_cls (by rcases hl with hl | hl <;> simp [Cls.has, hl])).sure)
          refine (exactly_andP (A := A) (st := '-' :: '-' :: d :: next) this).holds.mono ?_
          rintro o y rfl
          exact ⟨_, rfl⟩
    · rintro s v u ⟨v', hv⟩
      cases hv
      rw [h.obeys 401 s _ _ _ (show code 401 _ _ = some (.leaf (signLabel .dash)) from rfl)]

/-- An apostrophe in a word. -/
theorem apostrophe_holds (h : Inl S A E f) (hw : wordBefore S.letter S.number x) (hn : ∃ c ∈ next.head?, S.letter c = true) {st : Text} :
    Holds grammar S A f x st (.rule R.TypographicQuote) ('\'' :: next) (fun o _ => o = some ([.leaf (signLabel .apostrophe)], next)) := by
  obtain ⟨b, rfl, hb, hg⟩ := hw
  refine holds_rule ?_
  refine holds_skip h (Never.holds (yields_act (yields_scope (never_seq (lit_first (by decide))))) (still_of h (by decide +kernel))) ?_
  refine holds_act (P := fun o _ => ∃ v, o = some (v, next)) (holds_scope h.lasting (holds_seq (P := fun o y => y = some b ∧ o = some ([.nil], '\'' :: next)) ?_
    (fun y hy => nomatch hy.2) ?_)) (fun y hy => by obtain ⟨v, hv⟩ := hy; cases hv) ?_
  · refine (pred_holds (b := true) h (fun s hs => ?_)).mono (fun o y hy => hy)
    exact (h.enabled (386, .replacements) (by decide) _ _ _).trans (by simpa using h.replacements)
  · rintro v u y ⟨rfl, hv⟩
    cases hv
    refine holds_seq (P := fun o y => y = some b ∧ o = some ([.nil], '\'' :: next)) ?_ (fun y hy => nomatch hy.2) ?_
    · refine (pred_holds (b := true) h (fun s hs => ?_)).mono (fun o y hy => hy)
      rw [h.tracks.word _ _ _ _ (by decide), hs]
      rcases hb with hb | hb <;> simp [hb]
    · rintro v u y ⟨rfl, hv⟩
      cases hv
      refine holds_seq (lit_holds h (u := next) rfl) (fun y hy => nomatch hy.2) ?_
      rintro v u y ⟨rfl, hv⟩
      cases hv
      obtain ⟨d, hd, hl⟩ := hn
      cases next with
      | nil => cases hd
      | cons e next =>
        cases hd
        have : Sure grammar S (.cls ⟨false, [], [], true, false⟩) (d :: next) := (yields_cls (by simp [Cls.has, hl])).sure
        refine (exactly_andP (A := A) (st := '\'' :: d :: next) this).holds.mono ?_
        rintro o y rfl
        exact ⟨_, rfl⟩
  · rintro s v u ⟨v', hv⟩
    cases hv
    rw [h.obeys 388 s _ _ _ (show code 388 _ _ = some (.leaf (signLabel .apostrophe)) from rfl)]

/-- Signs, as elements. -/
theorem sign_holds (h : Inl S A E f) {pl : Place} (s : Sign) (hok : s.Ok S.letter S.number x next) {st : Text} :
    Holds grammar S A f x st pl.alts (s.written ++ next) (fun o _ => ∃ v u, o = some ([v], u) ∧ u = next ∧ v = .leaf (signLabel s)) := by
  have hst : ∃ c w, s.written = c :: w ∧ c ∈ starters := by cases s <;> exact ⟨_, _, rfl, by decide⟩
  obtain ⟨c, w, hw, hc⟩ := hst
  have hh : ∀ {o : Option (List Any × Text)} {y : Option Char}, o = some ([.leaf (signLabel s)], next) →
      ∃ v u, o = some ([v], u) ∧ u = next ∧ v = .leaf (signLabel s) := fun e => ⟨_, _, e, rfl, rfl⟩
  have hi : ∀ {y : Option Char}, ¬ ∃ (v : Any) (u : Text), (none : Option (List Any × Text)) = some ([v], u) ∧ u = next ∧ v = .leaf (signLabel s) := by
    rintro y ⟨v, u, hv, _⟩; cases hv
  have hI : Never grammar S (.rule R.InlineText) (s.written ++ next) := by rw [hw]; exact never_InlineText h hc
  have hSp : Never grammar S (.rule R.Spaces) (s.written ++ next) := by rw [hw]; exact never_Spaces h hc
  by_cases ha : s = .apostrophe
  · subst ha
    have hn : ∃ c ∈ next.head?, S.letter c = true := hok.2
    have hr : Never grammar S (.rule R.Replacement) ('\'' :: next) := by
      refine begins_never (F := [['\\'], ['`'], ['"'], ['\'', '`'], ['('], ['.'], ['-'], ['<'], ['=']]) ?_ 40 _ (by decide +kernel)
      intro m hm hp
      obtain ⟨z, hz⟩ := hp
      simp only [List.mem_cons, List.not_mem_nil, or_false] at hm
      rcases hm with rfl | rfl | rfl | rfl | rfl | rfl | rfl | rfl | rfl
      all_goals first
        | (have := (List.cons.inj hz).1; exact absurd this (by decide))
        | skip
      have e := (List.cons.inj hz).2
      obtain ⟨d, hd, hl⟩ := hn
      rw [← e] at hd
      cases hd
      rw [(h.ascii '`' (by decide)).1] at hl
      cases hl
    have key : ∀ {b : Exp} {st : Text}, Holds grammar S A f x st (.alt (.rule R.InlineText) (.alt (.rule R.Spaces) (.alt (.rule R.Replacement) (.alt (.rule R.TypographicQuote) b))))
        ('\'' :: next) (fun o _ => ∃ v u, o = some ([v], u) ∧ u = next ∧ v = .leaf (signLabel .apostrophe)) := by
      intro b st
      refine holds_never h hI (by decide) (holds_never h hSp (by decide) (holds_never h hr (by decide) (holds_first h ?_ (fun _ => hi (y := x)))))
      exact (apostrophe_holds h hok.1 hn).mono (fun o y e => hh (y := x) e)
    cases pl with
    | normal => exact key
    | once m => exact holds_rule key
    | twice m => exact holds_rule key
  · have hsym : ∀ st, Holds grammar S A f x st (.rule R.Symbol) (s.written ++ next) (fun o _ => o = some ([.leaf (signLabel s)], next)) := by
      intro st
      by_cases hd : s = .dash
      · subst hd; exact dash_holds h hok.1 hok.2
      · exact (exactly_Symbol h s ⟨ha, hd⟩ hok).holds
    have hrep : ∀ st, Holds grammar S A f x st (.rule R.Replacement) (s.written ++ next) (fun o _ => o = some ([.leaf (signLabel s)], next)) := by
      intro st
      refine holds_rule (holds_act (P := fun o _ => o = some ([.slice [.nil, .leaf (signLabel s)]], next)) (holds_scope h.lasting (holds_seq
        (P := fun o y => y = x ∧ o = some ([.nil], s.written ++ next)) ?_ (fun y hy => nomatch hy.2) ?_)) (fun y hy => nomatch hy) ?_)
      · refine (pred_holds (b := true) h (fun s hs => ?_)).mono (fun o y hy => hy)
        exact (h.enabled (379, .replacements) (by decide) _ _ _).trans (by simpa using h.replacements)
      · rintro v u y ⟨rfl, hv⟩
        cases hv
        refine (hsym _).mono ?_
        rintro o y rfl
        rfl
      · intro s' v u hv
        cases hv
        rw [h.obeys 380 s' _ _ _ rfl]
    have key : ∀ {b : Exp} {st : Text}, Holds grammar S A f x st (.alt (.rule R.InlineText) (.alt (.rule R.Spaces) (.alt (.rule R.Replacement) b)))
        (s.written ++ next) (fun o _ => ∃ v u, o = some ([v], u) ∧ u = next ∧ v = .leaf (signLabel s)) := by
      intro b st
      refine holds_never h hI (by decide) (holds_never h hSp (by decide) (holds_first h ?_ (fun _ => hi (y := x))))
      exact (hrep _).mono (fun o y e => hh (y := x) e)
    cases pl with
    | normal => exact key
    | once m => exact holds_rule key
    | twice m => exact holds_rule key

end C65
end Verif
