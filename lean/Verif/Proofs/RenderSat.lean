import Verif.Proofs.RenderText
/-!
Partial correctness of the computations of the renderer, with an invariant of the context.
-/
namespace Verif.Rend
open Verif.Html Verif.Tmpl

/-- What holds of the context throughout. -/
structure Inv (R : Rules) (images : Bool) (c : Ctx) : Prop where
  attrs : ∀ k v, c.attrs.get k = some v → DocV R images k v
  refs : ∀ p ∈ c.refs, RefOk R images p.2
  numbers : ∀ p ∈ c.numbers, Plain p.2
  prefixes : ∀ p ∈ c.prefixes, Safe R p.2 ∧ '%' ∉ p.2

/-- If the computation succeeds, its result has the property, and the invariant is kept. -/
def Sat (R : Rules) (images : Bool) {α : Type} (P : α → Prop) (m : M α) : Prop :=
  ∀ c a c', Inv R images c → m c = .ok (a, c') → P a ∧ Inv R images c'

section
variable {R : Rules} {images : Bool} {α β : Type} {P : α → Prop} {Q : β → Prop}

theorem Sat.pure {a : α} (h : P a) : Sat R images P (Pure.pure a : M α) := by
  intro c a' c' hc e
  cases e
  exact ⟨h, hc⟩

theorem Sat.bind {m : M α} {f : α → M β} (hm : Sat R images P m) (hf : ∀ a, P a → Sat R images Q (f a)) :
    Sat R images Q (m >>= f) := by
  intro c b c' hc e
  have e : M.bind m f c = .ok (b, c') := e
  unfold M.bind at e
  cases h : m c with
  | error x => rw [h] at e; cases e
  | ok r =>
    obtain ⟨a, c1⟩ := r
    rw [h] at e
    obtain ⟨ha, h1⟩ := hm c a c1 hc h
    exact hf a ha c1 b c' h1 e

theorem Sat.mono {P' : α → Prop} {m : M α} (h : Sat R images P m) (hp : ∀ a, P a → P' a) : Sat R images P' m :=
  fun c a c' hc e => ⟨hp a (h c a c' hc e).1, (h c a c' hc e).2⟩

theorem Sat.error {e : Err} : Sat R images P (M.error e : M α) := fun _ _ _ _ h => nomatch h

theorem Sat.get : Sat R images (Inv R images) M.get := by
  intro c a c' hc e
  cases e
  exact ⟨hc, hc⟩

theorem Sat.modify {f : Ctx → Ctx} (h : ∀ c, Inv R images c → Inv R images (f c)) :
    Sat R images (fun _ => True) (M.modify f) := by
  intro c a c' hc e
  cases e
  exact ⟨trivial, h c hc⟩

theorem Sat.lift {x : Except Err α} (h : ∀ a, x = .ok a → P a) : Sat R images P (M.lift x) := by
  intro c a c' hc e
  unfold M.lift at e
  cases x with
  | error y => cases e
  | ok b => cases e; exact ⟨h a rfl, hc⟩

/-- Any property of the context that a successful computation starts from may be used. -/
theorem Sat.ite {p : Prop} [Decidable p] {m n : M α} (h1 : p → Sat R images P m) (h2 : ¬ p → Sat R images P n) :
    Sat R images P (if p then m else n) := by
  split
  · exact h1 ‹_›
  · exact h2 ‹_›

end

section
variable {R : Rules} {images : Bool} {L : Lib}

theorem docAttrs_sat : Sat R images (fun a => ∀ k v, AMap.get a k = some v → DocV R images k v) docAttrs :=
  Sat.get.bind fun _ hc => Sat.pure hc.attrs

theorem exec_sat' (hL : LibOk R L) {tm : Templates → Tm} {K : Fields} {A : Known} {env : Tmpl.Env}
    (hok : accepts R K A (tm (templatesOf R)) = true) (hf : Fits R K env) (hA : Holds env A) :
    Sat R images (Markup R) (exec L tm env) := by
  intro c t c' hc e
  unfold exec at e
  rw [hL.tmpl] at e
  cases h : (tm (templatesOf R)).render L.lower env with
  | none => rw [h] at e; cases e
  | some u =>
    rw [h] at e
    cases e
    exact ⟨accepts_sound hL.lower hok hf hA h, hc⟩

theorem exec_sat (hL : LibOk R L) {tm : Templates → Tm} {K : Fields} {A : Known} {env : Tmpl.Env}
    (hok : ∀ R : Rules, accepts R K A (tm (templatesOf R)) = true) (hf : Fits R K env) (hA : Holds env A) :
    Sat R images (Markup R) (exec L tm env) := exec_sat' hL (hok R) hf hA

theorem fits_of {K : Fields} {env : Tmpl.Env} (h : ∀ p ∈ K, ∀ v, AMap.get env p.1 = some v → p.2.ok R v) : Fits R K env :=
  fun f k hk v hv => h (f, k) (AMap.get_eq_some_mem hk) v hv

theorem holds_nil {env : Tmpl.Env} : Holds env [] := fun _ h => nomatch h

theorem ok_markup {t : Text} : Kind.ok R .markup (.str t) ↔ Markup R t := by
  simp [Kind.ok, Val.shown]
theorem ok_value {t : Text} : Kind.ok R .value (.str t) ↔ Value R t := by
  simp [Kind.ok, Val.shown]
theorem ok_both {t : Text} : Kind.ok R .both (.str t) ↔ Markup R t ∧ Value R t := by
  simp [Kind.ok, Val.shown]
theorem ok_align {t : Text} : Kind.ok R .align (.str t) ↔ Align R t := by
  simp [Kind.ok, Val.shown]
theorem ok_num_markup {n : Int} : Kind.ok R .markup (.num n) ↔ True := by
  simp [Kind.ok, Val.shown]; exact (int_safe (R := R) n).1.markup
theorem ok_num_value {n : Int} : Kind.ok R .value (.num n) ↔ True := by
  simp [Kind.ok, Val.shown]; exact (int_safe (R := R) n).2
theorem ok_num_both {n : Int} : Kind.ok R .both (.num n) ↔ True := by
  simp [Kind.ok, Val.shown]; exact ⟨(int_safe (R := R) n).1.markup, (int_safe (R := R) n).2⟩

attribute [simp] ok_markup ok_value ok_both ok_align ok_num_markup ok_num_value ok_num_both
attribute [simp]
  admonitionBlockFields admonitionParagraphFields articleHeaderFields blockImageFields boldTextFields calloutListFields calloutListElementFields calloutRefFields documentDetailsFields documentAuthorDetailsFields embeddedParagraphFields externalCrossReferenceFields exampleBlockFields fencedBlockFields footnoteFields footnoteElementFields footnoteRefFields footnotesFields iconFontFields iconImageFields iconTextFields inlineButtonFields inlineIconFields inlineImageFields internalCrossReferenceFields invalidFootnoteFields italicTextFields labeledListFields labeledListElementFields labeledListHorizontalFields lineBreakFields linkFields listingBlockFields literalBlockFields manpageHeaderFields manpageNameParagraphFields markdownQuoteBlockFields markedTextFields monospaceTextFields openBlockFields orderedListFields orderedListElementFields passthroughBlockFields paragraphFields preambleFields qAndAListFields qAndAListElementFields quoteBlockFields quoteParagraphFields sectionContentFields sidebarBlockFields sourceBlockFields subscriptTextFields superscriptTextFields tableFields tableBodyFields tableCellFields tableCellBlockFields tableHeaderFields tableHeaderCellFields tableFooterFields tableFooterCellFields tableRowFields thematicBreakFields tocRootFields tocEntryFields tocSectionFields unorderedListFields unorderedListElementFields verseBlockFields verseParagraphFields

/-- Checks the data of a template. -/
macro "fits" : tactic => `(tactic| (apply fits_of; simp [blockEnv, quoteEnv, AMap.get_cons, *]))

end

end Verif.Rend
