import Verif.Model.Render
import Verif.Proofs.RenderText
/-!
The depth to which a document is rendered does not matter, if it is sufficient (C53).
-/
namespace Verif.Rend
open Verif.Tmpl (Tm Templates html5 xhtml5)
open Verif (Text)

/-- The first computation is the second one, or it is not finished. -/
structure Upto {α : Type} (m m' : M α) : Prop where
  out : ∀ c, m c = .error .fuel ∨ m c = m' c

structure UptoE {α : Type} (x y : Except Err α) : Prop where
  out : x = .error .fuel ∨ x = y

theorem Upto.refl {α : Type} {m : M α} : Upto m m := ⟨fun _ => .inr rfl⟩
theorem UptoE.refl {α : Type} {x : Except Err α} : UptoE x x := ⟨.inr rfl⟩

theorem Upto.bind {α β : Type} {m m' : M α} {f f' : α → M β} (hm : Upto m m') (hf : ∀ a, Upto (f a) (f' a)) :
    Upto (m >>= f) (m' >>= f') := by
  refine ⟨fun c => ?_⟩
  show M.bind m f c = _ ∨ M.bind m f c = M.bind m' f' c
  unfold M.bind
  rcases hm.out c with h | h
  · rw [h]; exact .inl rfl
  · rw [h]
    cases m' c with
    | error e => exact .inr rfl
    | ok p => exact (hf p.1).out p.2

theorem UptoE.bind {α β : Type} {x x' : Except Err α} {f f' : α → Except Err β} (hm : UptoE x x') (hf : ∀ a, UptoE (f a) (f' a)) :
    UptoE (x >>= f) (x' >>= f') := by
  rcases hm.out with h | h
  · subst h; exact ⟨.inl rfl⟩
  · subst h
    cases x with
    | error e => exact ⟨.inr rfl⟩
    | ok p => exact hf p

theorem Upto.lift {α : Type} {x x' : Except Err α} (h : UptoE x x') : Upto (M.lift x) (M.lift x') := by
  refine ⟨fun c => ?_⟩
  rcases h.out with h | h
  · subst h; exact .inl rfl
  · subst h; exact .inr rfl

theorem Upto.ite {α : Type} {p : Prop} [Decidable p] {m m' k k' : M α} (h : Upto m m') (h' : Upto k k') :
    Upto (if p then m else k) (if p then m' else k') := by
  split
  · exact h
  · exact h'

macro "upto" : tactic => `(tactic| repeat' (first
  | with_reducible exact Upto.refl | with_reducible exact UptoE.refl | assumption | apply_assumption | refine Upto.bind ?_ (fun _ => ?_) | refine UptoE.bind ?_ (fun _ => ?_)
  | refine Upto.lift ?_ | refine inBlock_upto ?_ | refine Upto.ite ?_ ?_ | split))

theorem inBlock_upto {m m' : M Text} (h : Upto m m') : Upto (inBlock m) (inBlock m') := by
  unfold inBlock
  refine Upto.bind Upto.refl fun _ => Upto.bind Upto.refl fun _ => Upto.bind h fun _ => Upto.bind Upto.refl fun _ => Upto.refl

theorem plainInline_upto {p p' : El → Except Err Text} (h : ∀ e, UptoE (p e) (p' e)) : ∀ l, UptoE (plainInline p l) (plainInline p' l) := by
  intro l
  induction l with
  | nil => exact UptoE.refl
  | cons e l ih => unfold plainInline; upto

theorem plainAll_upto {p p' : El → Except Err Text} (h : ∀ e, UptoE (p e) (p' e)) : ∀ l, UptoE (plainAll p l) (plainAll p' l) := by
  intro l
  induction l with
  | nil => exact UptoE.refl
  | cons e l ih => unfold plainAll; upto

section
variable {L : Lib} {re re' : El → M Text} {pl pl' : Bool → El → Except Err Text}
variable (hre : ∀ e, Upto (re e) (re' e)) (hpl : ∀ b e, UptoE (pl b e) (pl' b e))

include hre in
theorem renderAll_upto : ∀ (x0 : List El), Upto (renderAll re x0) (renderAll re' x0) := by
  intro x0
  induction x0 with
  | nil => unfold renderAll; upto
  | cons e l ih => (unfold renderAll; upto)

include hre in
theorem renderListElements_upto : ∀ (x0 : List El), Upto (renderListElements re x0) (renderListElements re' x0) := by
  have := renderAll_upto hre
  intro x0
  (unfold renderListElements; upto)

include hre in
theorem renderInline_upto : ∀ (x0 : List El), Upto (renderInline re x0) (renderInline re' x0) := by
  intro x0
  induction x0 with
  | nil => unfold renderInline; upto
  | cons e l ih => (unfold renderInline; upto)

include hre in
theorem elementRole_upto : ∀ (x0 : AV), Upto (elementRole re x0) (elementRole re' x0) := by
  have := renderAll_upto hre
  intro x0
  (unfold elementRole; upto)

include hre in
theorem rolesAll_upto : ∀ (x0 : List AV), Upto (rolesAll re x0) (rolesAll re' x0) := by
  have := elementRole_upto hre
  intro x0
  induction x0 with
  | nil => unfold rolesAll; upto
  | cons e l ih => (unfold rolesAll; upto)

include hre in
theorem rolesOf_upto : ∀ (x0 : Attrs), Upto (rolesOf re x0) (rolesOf re' x0) := by
  have := rolesAll_upto hre
  intro x0
  (unfold rolesOf; upto)

include hre in
theorem elementRoles_upto : ∀ (x0 : Attrs), Upto (elementRoles re x0) (elementRoles re' x0) := by
  have := rolesOf_upto hre
  intro x0
  (unfold elementRoles; upto)

include hre in
theorem imageRoles_upto : ∀ (x0 : Attrs), Upto (imageRoles re x0) (imageRoles re' x0) := by
  have := rolesOf_upto hre
  intro x0
  (unfold imageRoles; upto)

include hre in
theorem elementTitle_upto : ∀ (x0 : Attrs), Upto (elementTitle re x0) (elementTitle re' x0) := by
  have := renderAll_upto hre
  intro x0
  (unfold elementTitle; upto)

include hre in
theorem renderQuoted_upto : ∀ (x0 : QuotedKind) (x1 : Attrs) (x2 : List El), Upto (renderQuoted L re x0 x1 x2) (renderQuoted L re' x0 x1 x2) := by
  have := renderAll_upto hre
  have := elementRoles_upto hre
  intro x0 x1 x2
  (unfold renderQuoted; upto)

include hre in
theorem passthroughAll_upto : ∀ (x0 : List El), Upto (passthroughAll re x0) (passthroughAll re' x0) := by
  intro x0
  induction x0 with
  | nil => unfold passthroughAll; upto
  | cons e l ih => cases e <;> (unfold passthroughAll; (try dsimp only); upto)

include hre in
theorem passthroughContent_upto : ∀ (x0 : List El), Upto (passthroughContent re x0) (passthroughContent re' x0) := by
  have := passthroughAll_upto hre
  intro x0
  (unfold passthroughContent; upto)

include hre in
theorem renderPassthrough_upto : ∀ (x0 : Bool) (x1 : List El), Upto (renderPassthrough re x0 x1) (renderPassthrough re' x0 x1) := by
  have := passthroughContent_upto hre
  intro x0 x1
  (unfold renderPassthrough; upto)

include hre in
theorem linkText_upto : ∀ (x0 : Option Loc) (x1 : Attrs) (x2 : Text) (x3 : Text), Upto (linkText re x0 x1 x2 x3) (linkText re' x0 x1 x2 x3) := by
  have := renderInline_upto hre
  intro x0 x1 x2 x3
  (unfold linkText; upto)

include hre in
theorem renderLink_upto : ∀ (x0 : Option Loc) (x1 : Attrs), Upto (renderLink L re x0 x1) (renderLink L re' x0 x1) := by
  have := elementRoles_upto hre
  have := linkText_upto hre
  intro x0 x1
  (unfold renderLink; upto)

include hre hpl in
theorem xrefLabel_upto : ∀ (x0 : List El), Upto (xrefLabel re pl x0) (xrefLabel re' pl' x0) := by
  intro x0
  induction x0 with
  | nil => unfold xrefLabel; upto
  | cons e l ih => cases e <;> (unfold xrefLabel; (try dsimp only); upto)

include hre hpl in
theorem refLabel_upto : ∀ (x0 : Text) (x1 : Option AV), Upto (refLabel re pl x0 x1) (refLabel re' pl' x0 x1) := by
  have := xrefLabel_upto hre hpl
  intro x0 x1
  (unfold refLabel; upto)

include hre hpl in
theorem renderXref_upto : ∀ (x0 : AV) (x1 : AV), Upto (renderXref L re pl x0 x1) (renderXref L re' pl' x0 x1) := by
  have := refLabel_upto hre hpl
  intro x0 x1
  (unfold renderXref; upto)

include hre in
theorem extLabel_upto : ∀ (x0 : Attrs) (x1 : Text), Upto (extLabel re x0 x1) (extLabel re' x0 x1) := by
  have := renderInline_upto hre
  intro x0 x1
  (unfold extLabel; upto)

include hre in
theorem renderExtXref_upto : ∀ (x0 : Option Loc) (x1 : Attrs), Upto (renderExtXref L re x0 x1) (renderExtXref L re' x0 x1) := by
  have := extLabel_upto hre
  intro x0 x1
  (unfold renderExtXref; upto)

include hre in
theorem renderImageBlock_upto : ∀ (x0 : Loc) (x1 : Attrs), Upto (renderImageBlock L re x0 x1) (renderImageBlock L re' x0 x1) := by
  have := imageRoles_upto hre
  have := elementTitle_upto hre
  intro x0 x1
  (unfold renderImageBlock; upto)

include hre in
theorem renderInlineImage_upto : ∀ (x0 : Loc) (x1 : Attrs), Upto (renderInlineImage L re x0 x1) (renderInlineImage L re' x0 x1) := by
  have := imageRoles_upto hre
  have := elementTitle_upto hre
  intro x0 x1
  (unfold renderInlineImage; upto)

include hre in
theorem paragraphElements_upto : ∀ (x0 : Attrs) (x1 : List El), Upto (paragraphElements L re x0 x1) (paragraphElements L re' x0 x1) := by
  have := renderAll_upto hre
  intro x0 x1
  (unfold paragraphElements; upto)

include hre in
theorem regularParagraph_upto : ∀ (x0 : Attrs) (x1 : List El), Upto (regularParagraph L re x0 x1) (regularParagraph L re' x0 x1) := by
  have := elementRoles_upto hre
  have := elementTitle_upto hre
  have := paragraphElements_upto (L := L) hre
  intro x0 x1
  (unfold regularParagraph; upto)

include hre in
theorem manpageNameParagraph_upto : ∀ (x0 : List El), Upto (manpageNameParagraph L re x0) (manpageNameParagraph L re' x0) := by
  have := renderAll_upto hre
  intro x0
  (unfold manpageNameParagraph; upto)

include hre in
theorem embeddedParagraph_upto : ∀ (x0 : Attrs) (x1 : List El), Upto (embeddedParagraph L re x0 x1) (embeddedParagraph L re' x0 x1) := by
  have := renderAll_upto hre
  intro x0 x1
  (unfold embeddedParagraph; upto)

include hre in
theorem exampleParagraph_upto : ∀ (x0 : Attrs) (x1 : List El), Upto (exampleParagraph L re x0 x1) (exampleParagraph L re' x0 x1) := by
  have := renderAll_upto hre
  have := elementRoles_upto hre
  have := elementTitle_upto hre
  intro x0 x1
  (unfold exampleParagraph; upto)

include hre in
theorem listingParagraph_upto : ∀ (x0 : Attrs) (x1 : List El), Upto (listingParagraph L re x0 x1) (listingParagraph L re' x0 x1) := by
  have := renderAll_upto hre
  have := elementRoles_upto hre
  have := elementTitle_upto hre
  intro x0 x1
  (unfold listingParagraph; upto)

include hre in
theorem sourceContent_upto : ∀ (x0 : Attrs) (x1 : List El), Upto (sourceContent L re x0 x1) (sourceContent L re' x0 x1) := by
  have := renderAll_upto hre
  intro x0 x1
  (unfold sourceContent; upto)

include hre in
theorem sourceBlock_upto : ∀ (x0 : Attrs) (x1 : List El), Upto (sourceBlock L re x0 x1) (sourceBlock L re' x0 x1) := by
  have := elementRoles_upto hre
  have := elementTitle_upto hre
  have := sourceContent_upto (L := L) hre
  intro x0 x1
  (unfold sourceBlock; upto)

include hre hpl in
theorem verseParagraph_upto : ∀ (x0 : Attrs) (x1 : List El), Upto (verseParagraph L re pl x0 x1) (verseParagraph L re' pl' x0 x1) := by
  have := elementTitle_upto hre
  have := plainAll_upto (fun e => hpl false e)
  intro x0 x1
  (unfold verseParagraph; upto)

include hre in
theorem quoteParagraph_upto : ∀ (x0 : Attrs) (x1 : List El), Upto (quoteParagraph L re x0 x1) (quoteParagraph L re' x0 x1) := by
  have := elementTitle_upto hre
  have := paragraphElements_upto (L := L) hre
  intro x0 x1
  (unfold quoteParagraph; upto)

include hre in
theorem admonitionParagraph_upto : ∀ (x0 : Attrs) (x1 : List El), Upto (admonitionParagraph L re x0 x1) (admonitionParagraph L re' x0 x1) := by
  have := elementRoles_upto hre
  have := elementTitle_upto hre
  have := paragraphElements_upto (L := L) hre
  intro x0 x1
  (unfold admonitionParagraph; upto)

include hre in
theorem literalParagraph_upto : ∀ (x0 : Attrs) (x1 : List El), Upto (literalParagraph L re x0 x1) (literalParagraph L re' x0 x1) := by
  have := renderAll_upto hre
  have := elementRoles_upto hre
  have := elementTitle_upto hre
  intro x0 x1
  (unfold literalParagraph; upto)

include hre in
theorem passthroughParagraph_upto : ∀ (x0 : List El), Upto (passthroughParagraph re x0) (passthroughParagraph re' x0) := by
  have := passthroughContent_upto hre
  intro x0
  (unfold passthroughParagraph; upto)

include hre hpl in
theorem renderParagraph_upto : ∀ (x0 : Attrs) (x1 : List El), Upto (renderParagraph L re pl x0 x1) (renderParagraph L re' pl' x0 x1) := by
  have := regularParagraph_upto (L := L) hre
  have := manpageNameParagraph_upto (L := L) hre
  have := embeddedParagraph_upto (L := L) hre
  have := exampleParagraph_upto (L := L) hre
  have := listingParagraph_upto (L := L) hre
  have := sourceBlock_upto (L := L) hre
  have := verseParagraph_upto (L := L) hre hpl
  have := quoteParagraph_upto (L := L) hre
  have := admonitionParagraph_upto (L := L) hre
  have := literalParagraph_upto (L := L) hre
  have := passthroughParagraph_upto hre
  intro x0 x1
  (unfold renderParagraph; upto)

include hre in
theorem admonitionBlock_upto : ∀ (x0 : Attrs) (x1 : List El), Upto (admonitionBlock L re x0 x1) (admonitionBlock L re' x0 x1) := by
  have := renderAll_upto hre
  have := elementRoles_upto hre
  have := elementTitle_upto hre
  intro x0 x1
  (unfold admonitionBlock; upto)

include hre in
theorem exampleBlock_upto : ∀ (x0 : Attrs) (x1 : List El), Upto (exampleBlock L re x0 x1) (exampleBlock L re' x0 x1) := by
  have := renderAll_upto hre
  have := elementRoles_upto hre
  have := elementTitle_upto hre
  intro x0 x1
  (unfold exampleBlock; upto)

include hre in
theorem fencedBlock_upto : ∀ (x0 : Attrs) (x1 : List El), Upto (fencedBlock L re x0 x1) (fencedBlock L re' x0 x1) := by
  have := renderAll_upto hre
  have := elementRoles_upto hre
  have := elementTitle_upto hre
  intro x0 x1
  (unfold fencedBlock; upto)

include hre in
theorem literalBlock_upto : ∀ (x0 : Attrs) (x1 : List El), Upto (literalBlock L re x0 x1) (literalBlock L re' x0 x1) := by
  have := renderAll_upto hre
  have := elementRoles_upto hre
  have := elementTitle_upto hre
  intro x0 x1
  (unfold literalBlock; upto)

include hre in
theorem listingBlock_upto : ∀ (x0 : Attrs) (x1 : List El), Upto (listingBlock L re x0 x1) (listingBlock L re' x0 x1) := by
  have := renderAll_upto hre
  have := elementRoles_upto hre
  have := elementTitle_upto hre
  have := sourceBlock_upto (L := L) hre
  intro x0 x1
  (unfold listingBlock; upto)

include hre in
theorem markdownQuoteBlock_upto : ∀ (x0 : Attrs) (x1 : List El), Upto (markdownQuoteBlock L re x0 x1) (markdownQuoteBlock L re' x0 x1) := by
  have := renderAll_upto hre
  have := elementRoles_upto hre
  have := elementTitle_upto hre
  intro x0 x1
  (unfold markdownQuoteBlock; upto)

include hre in
theorem passthroughBlock_upto : ∀ (x0 : Attrs) (x1 : List El), Upto (passthroughBlock L re x0 x1) (passthroughBlock L re' x0 x1) := by
  have := renderAll_upto hre
  have := elementRoles_upto hre
  intro x0 x1
  (unfold passthroughBlock; upto)

include hre in
theorem quoteBlock_upto : ∀ (x0 : Attrs) (x1 : List El), Upto (quoteBlock L re x0 x1) (quoteBlock L re' x0 x1) := by
  have := renderAll_upto hre
  have := elementRoles_upto hre
  have := elementTitle_upto hre
  intro x0 x1
  (unfold quoteBlock; upto)

include hre in
theorem verseBlock_upto : ∀ (x0 : Attrs) (x1 : List El), Upto (verseBlock L re x0 x1) (verseBlock L re' x0 x1) := by
  have := renderAll_upto hre
  have := elementRoles_upto hre
  have := elementTitle_upto hre
  intro x0 x1
  (unfold verseBlock; upto)

include hre in
theorem sidebarBlock_upto : ∀ (x0 : Attrs) (x1 : List El), Upto (sidebarBlock L re x0 x1) (sidebarBlock L re' x0 x1) := by
  have := renderAll_upto hre
  have := elementRoles_upto hre
  have := elementTitle_upto hre
  intro x0 x1
  (unfold sidebarBlock; upto)

include hre in
theorem openBlock_upto : ∀ (x0 : Attrs) (x1 : List El), Upto (openBlock L re x0 x1) (openBlock L re' x0 x1) := by
  have := renderAll_upto hre
  have := elementRoles_upto hre
  have := elementTitle_upto hre
  intro x0 x1
  (unfold openBlock; upto)

include hre in
theorem renderBlock_upto : ∀ (x0 : BlockKind) (x1 : Attrs) (x2 : List El), Upto (renderBlock L re x0 x1 x2) (renderBlock L re' x0 x1 x2) := by
  have := admonitionBlock_upto (L := L) hre
  have := exampleBlock_upto (L := L) hre
  have := fencedBlock_upto (L := L) hre
  have := literalBlock_upto (L := L) hre
  have := listingBlock_upto (L := L) hre
  have := markdownQuoteBlock_upto (L := L) hre
  have := passthroughBlock_upto (L := L) hre
  have := quoteBlock_upto (L := L) hre
  have := verseBlock_upto (L := L) hre
  have := sidebarBlock_upto (L := L) hre
  have := openBlock_upto (L := L) hre
  intro x0 x1 x2
  (unfold renderBlock; upto)

include hre in
theorem orderedItems_upto : ∀ (x0 : List Item), Upto (orderedItems L re x0) (orderedItems L re' x0) := by
  have := renderListElements_upto hre
  intro x0
  induction x0 with
  | nil => unfold orderedItems; upto
  | cons e l ih => (unfold orderedItems; upto)

include hre in
theorem orderedList_upto : ∀ (x0 : Attrs) (x1 : List Item), Upto (orderedList L re x0 x1) (orderedList L re' x0 x1) := by
  have := elementRoles_upto hre
  have := elementTitle_upto hre
  have := orderedItems_upto (L := L) hre
  intro x0 x1
  (unfold orderedList; upto)

include hre in
theorem unorderedItems_upto : ∀ (x0 : List Item), Upto (unorderedItems L re x0) (unorderedItems L re' x0) := by
  have := renderListElements_upto hre
  intro x0
  induction x0 with
  | nil => unfold unorderedItems; upto
  | cons e l ih => (unfold unorderedItems; upto)

include hre in
theorem unorderedList_upto : ∀ (x0 : Attrs) (x1 : List Item), Upto (unorderedList L re x0 x1) (unorderedList L re' x0 x1) := by
  have := elementRoles_upto hre
  have := elementTitle_upto hre
  have := unorderedItems_upto (L := L) hre
  intro x0 x1
  (unfold unorderedList; upto)

include hre in
theorem labeledItems_upto : ∀ (x0 : (Templates → Tm)) (x1 : Bool) (x2 : List Item), Upto (labeledItems L re x0 x1 x2) (labeledItems L re' x0 x1 x2) := by
  have := renderListElements_upto hre
  have := renderInline_upto hre
  intro x0 x1 x2
  induction x2 generalizing x0 x1 with
  | nil => unfold labeledItems; upto
  | cons e l ih => (unfold labeledItems; upto)

include hre in
theorem labeledListWith_upto : ∀ (x0 : (Templates → Tm)) (x1 : (Templates → Tm)) (x2 : Attrs) (x3 : List Item), Upto (labeledListWith L re x0 x1 x2 x3) (labeledListWith L re' x0 x1 x2 x3) := by
  have := elementRoles_upto hre
  have := elementTitle_upto hre
  have := labeledItems_upto (L := L) hre
  intro x0 x1 x2 x3
  (unfold labeledListWith; upto)

include hre in
theorem labeledList_upto : ∀ (x0 : Attrs) (x1 : List Item), Upto (labeledList L re x0 x1) (labeledList L re' x0 x1) := by
  have := labeledListWith_upto (L := L) hre
  intro x0 x1
  (unfold labeledList; upto)

include hre in
theorem calloutItems_upto : ∀ (x0 : List Item), Upto (calloutItems L re x0) (calloutItems L re' x0) := by
  have := renderListElements_upto hre
  intro x0
  induction x0 with
  | nil => unfold calloutItems; upto
  | cons e l ih => (unfold calloutItems; upto)

include hre in
theorem calloutList_upto : ∀ (x0 : Attrs) (x1 : List Item), Upto (calloutList L re x0 x1) (calloutList L re' x0 x1) := by
  have := elementRoles_upto hre
  have := elementTitle_upto hre
  have := calloutItems_upto (L := L) hre
  intro x0 x1
  (unfold calloutList; upto)

include hre in
theorem renderList_upto : ∀ (x0 : ListKind) (x1 : Attrs) (x2 : List Item), Upto (renderList L re x0 x1 x2) (renderList L re' x0 x1 x2) := by
  have := orderedList_upto (L := L) hre
  have := unorderedList_upto (L := L) hre
  have := labeledList_upto (L := L) hre
  have := calloutList_upto (L := L) hre
  intro x0 x1 x2
  (unfold renderList; upto)

include hre in
theorem headCell_upto : ∀ (x0 : (Templates → Tm)) (x1 : List El) (x2 : Col), Upto (headCell L re x0 x1 x2) (headCell L re' x0 x1 x2) := by
  have := renderInline_upto hre
  intro x0 x1 x2
  (unfold headCell; upto)

include hre in
theorem headCells_upto : ∀ (x0 : (Templates → Tm)) (x1 : List Col) (x2 : Nat) (x3 : List (List El)), Upto (headCells L re x0 x1 x2 x3) (headCells L re' x0 x1 x2 x3) := by
  have := headCell_upto (L := L) hre
  intro x0 x1 x2 x3
  induction x3 generalizing x0 x1 x2 with
  | nil => unfold headCells; upto
  | cons e l ih => (unfold headCells; upto)

include hre in
theorem headRow_upto : ∀ (x0 : (Templates → Tm)) (x1 : (Templates → Tm)) (x2 : List Col) (x3 : Option (List (List El))), Upto (headRow L re x0 x1 x2 x3) (headRow L re' x0 x1 x2 x3) := by
  have := headCells_upto (L := L) hre
  intro x0 x1 x2 x3
  (unfold headRow; upto)

include hre in
theorem cellBlock_upto : ∀ (x0 : El), Upto (cellBlock L re x0) (cellBlock L re' x0) := by
  have := renderAll_upto hre
  have := elementTitle_upto hre
  intro x0
  cases x0 <;> (unfold cellBlock; (try dsimp only); upto)

include hre in
theorem cellBlocks_upto : ∀ (x0 : List El), Upto (cellBlocks L re x0) (cellBlocks L re' x0) := by
  have := cellBlock_upto (L := L) hre
  intro x0
  induction x0 with
  | nil => unfold cellBlocks; upto
  | cons e l ih => (unfold cellBlocks; upto)

include hre in
theorem tableCell_upto : ∀ (x0 : List El) (x1 : Col), Upto (tableCell L re x0 x1) (tableCell L re' x0 x1) := by
  have := cellBlocks_upto (L := L) hre
  intro x0 x1
  (unfold tableCell; upto)

include hre in
theorem rowCells_upto : ∀ (x0 : List Col) (x1 : Nat) (x2 : List (List El)), Upto (rowCells L re x0 x1 x2) (rowCells L re' x0 x1 x2) := by
  have := tableCell_upto (L := L) hre
  intro x0 x1 x2
  induction x2 generalizing x0 x1 with
  | nil => unfold rowCells; upto
  | cons e l ih => (unfold rowCells; upto)

include hre in
theorem tableRows_upto : ∀ (x0 : List Col) (x1 : List (List (List El))), Upto (tableRows L re x0 x1) (tableRows L re' x0 x1) := by
  have := rowCells_upto (L := L) hre
  intro x0 x1
  induction x1 generalizing x0 with
  | nil => unfold tableRows; upto
  | cons e l ih => (unfold tableRows; upto)

include hre in
theorem tableBody_upto : ∀ (x0 : List Col) (x1 : List (List (List El))), Upto (tableBody L re x0 x1) (tableBody L re' x0 x1) := by
  have := tableRows_upto (L := L) hre
  intro x0 x1
  (unfold tableBody; upto)

include hre in
theorem renderTable_upto : ∀ (x0 : Attrs) (x1 : Option (List (List El))) (x2 : List (List (List El))) (x3 : Option (List (List El))), Upto (renderTable L re x0 x1 x2 x3) (renderTable L re' x0 x1 x2 x3) := by
  have := elementRoles_upto hre
  have := elementTitle_upto hre
  have := headRow_upto (L := L) hre
  have := tableBody_upto (L := L) hre
  intro x0 x1 x2 x3
  (unfold renderTable; upto)

include hre in
theorem sectionTitle_upto : ∀ (x0 : Int) (x1 : Attrs) (x2 : List El), Upto (sectionTitle L re x0 x1 x2) (sectionTitle L re' x0 x1 x2) := by
  have := renderInline_upto hre
  intro x0 x1 x2
  (unfold sectionTitle; upto)

include hre in
theorem renderSection_upto : ∀ (x0 : Int) (x1 : Attrs) (x2 : List El) (x3 : List El), Upto (renderSection L re x0 x1 x2 x3) (renderSection L re' x0 x1 x2 x3) := by
  have := renderAll_upto hre
  have := elementRoles_upto hre
  have := sectionTitle_upto (L := L) hre
  intro x0 x1 x2 x3
  (unfold renderSection; upto)

include hre in
theorem tocTitleOf_upto : ∀ (x0 : Option AV), Upto (tocTitleOf re x0) (tocTitleOf re' x0) := by
  have := renderAll_upto hre
  intro x0
  (unfold tocTitleOf; upto)

include hre in
theorem tocTitle_upto : Upto (tocTitle re) (tocTitle re') := by
  have := tocTitleOf_upto hre
  (unfold tocTitle; upto)

include hre in
theorem renderToc_upto : ∀ (x0 : Option (List Toc)), Upto (renderToc L re x0) (renderToc L re' x0) := by
  have := tocTitle_upto hre
  intro x0
  (unfold renderToc; upto)

include hre in
theorem renderPreamble_upto : ∀ (x0 : List El) (x1 : Option (List Toc)), Upto (renderPreamble L re x0 x1) (renderPreamble L re' x0 x1) := by
  have := renderAll_upto hre
  have := renderToc_upto (L := L) hre
  intro x0 x1
  (unfold renderPreamble; upto)

include hre hpl in
theorem renderUserMacro_upto : ∀ (x0 : Bool) (x1 : String) (x2 : Text) (x3 : Attrs) (x4 : Text), Upto (renderUserMacro L re pl x0 x1 x2 x3 x4) (renderUserMacro L re' pl' x0 x1 x2 x3 x4) := by
  have := renderParagraph_upto (L := L) hre hpl
  intro x0 x1 x2 x3 x4
  (unfold renderUserMacro; upto)

include hre in
theorem footnoteElement_upto : ∀ (x0 : Footnote), Upto (footnoteElement L re x0) (footnoteElement L re' x0) := by
  have := renderInline_upto hre
  intro x0
  (unfold footnoteElement; upto)

include hre in
theorem footnoteElements_upto : ∀ (x0 : List Footnote), Upto (footnoteElements L re x0) (footnoteElements L re' x0) := by
  have := footnoteElement_upto (L := L) hre
  intro x0
  induction x0 with
  | nil => unfold footnoteElements; upto
  | cons e l ih => (unfold footnoteElements; upto)

include hre in
theorem renderFootnotes_upto : ∀ (x0 : List Footnote), Upto (renderFootnotes L re x0) (renderFootnotes L re' x0) := by
  have := footnoteElements_upto (L := L) hre
  intro x0
  (unfold renderFootnotes; upto)

include hre in
theorem documentHeader_upto : ∀ (x0 : Option (Attrs × Option (List El) × List El)), Upto (documentHeader L re x0) (documentHeader L re' x0) := by
  have := renderAll_upto hre
  intro x0
  (unfold documentHeader; upto)

include hre in
theorem documentBody_upto : ∀ (x0 : List El) (x1 : Option (Option (List Toc))) (x2 : List Footnote), Upto (documentBody L re x0 x1 x2) (documentBody L re' x0 x1 x2) := by
  have := renderAll_upto hre
  have := renderFootnotes_upto (L := L) hre
  intro x0 x1 x2
  (unfold documentBody; upto)

include hre hpl in
theorem manpageHeader_upto : ∀ (x0 : Option (Option (List El))) (x1 : El), Upto (manpageHeader L re pl x0 x1) (manpageHeader L re' pl' x0 x1) := by
  have := renderAll_upto hre
  have := renderParagraph_upto (L := L) hre hpl
  intro x0 x1
  (unfold manpageHeader; upto)

include hre hpl in
theorem splitAndRender_upto : ∀ (x0 : Bool) (x1 : Doc), Upto (splitAndRender L re pl x0 x1) (splitAndRender L re' pl' x0 x1) := by
  have := documentHeader_upto (L := L) hre
  have := documentBody_upto (L := L) hre
  have := manpageHeader_upto (L := L) hre hpl
  intro x0 x1
  (unfold splitAndRender; upto)

include hre in
theorem documentRoles_upto : ∀ (x0 : Option (Attrs × Option (List El) × List El)), Upto (documentRoles re x0) (documentRoles re' x0) := by
  have := elementRoles_upto hre
  intro x0
  (unfold documentRoles; upto)

include hre hpl in
theorem dispatch_upto : ∀ (e : El), Upto (dispatch L re pl e) (dispatch L re' pl' e) := by
  intro e
  unfold dispatch
  cases e with
  | toc s => exact renderToc_upto hre s
  | sect level a title els => exact renderSection_upto hre ..
  | preamble els toc => exact renderPreamble_upto hre ..
  | list k a items => exact renderList_upto hre ..
  | paragraph a els => exact renderParagraph_upto hre hpl ..
  | xref id label => exact renderXref_upto hre hpl ..
  | extXref loc a => exact renderExtXref_upto hre ..
  | quoted k a els => exact renderQuoted_upto hre ..
  | passthrough sp els => exact renderPassthrough_upto hre ..
  | imageBlock loc a => exact renderImageBlock_upto hre ..
  | inlineImage loc a => exact renderInlineImage_upto hre ..
  | block k a els => exact renderBlock_upto hre ..
  | table a header rows footer => exact renderTable_upto hre ..
  | link loc a => exact renderLink_upto hre ..
  | userMacro block name value a raw => exact renderUserMacro_upto hre hpl ..
  | indexTerm els => exact renderInline_upto hre ..
  | _ => exact Upto.refl

mutual
theorem prerenderEntry_upto {re re' : El → M Text} (hre : ∀ e, Upto (re e) (re' e)) : ∀ (t : Toc), Upto (prerenderEntry re t) (prerenderEntry re' t)
  | .entry id level title number children => by
    unfold prerenderEntry
    refine Upto.bind (prerenderSections_upto hre children) fun _ => Upto.bind Upto.refl fun c => ?_
    cases c.refs.lookup id with
    | none => exact Upto.refl
    | some v =>
      cases v with
      | els l => exact Upto.bind (renderAll_upto hre l) fun _ => Upto.refl
      | _ => exact Upto.refl
theorem prerenderSections_upto {re re' : El → M Text} (hre : ∀ e, Upto (re e) (re' e)) : ∀ (l : List Toc), Upto (prerenderSections re l) (prerenderSections re' l)
  | [] => Upto.refl
  | t :: l => by
    unfold prerenderSections
    exact Upto.bind (prerenderEntry_upto hre t) fun _ => Upto.bind (prerenderSections_upto hre l) fun _ => Upto.refl
end

include hre in
theorem prerenderToc_upto (t : Option (Option (List Toc))) : Upto (prerenderToc re t) (prerenderToc re' t) := by
  have := prerenderSections_upto hre
  unfold prerenderToc; upto

include hre hpl in
theorem renderParts_upto (wrap : Bool) (d : Doc) : Upto (renderParts L re pl wrap d) (renderParts L re' pl' wrap d) := by
  unfold renderParts
  exact Upto.bind (prerenderToc_upto hre _) fun _ => Upto.bind (splitAndRender_upto hre hpl _ _) fun _ =>
    Upto.bind (documentRoles_upto hre _) fun _ => Upto.refl

end

theorem plain_upto (L : Lib) (esc : Option (Text → Text)) : ∀ (n m : Nat) (e : El), n ≤ m → UptoE (plain L esc n e) (plain L esc m e)
  | 0, _, _, _ => ⟨.inl rfl⟩
  | n + 1, 0, _, h => by omega
  | n + 1, m + 1, e, h => by
    have ih : ∀ l, UptoE (plainInline (plain L esc n) l) (plainInline (plain L esc m) l) :=
      plainInline_upto fun e => plain_upto L esc n m e (by omega)
    unfold plain
    cases e with
    | quoted k a els => exact ih els
    | passthrough sp els => exact ih els
    | link loc a =>
      dsimp only
      cases AMap.get a "text" with
      | none => exact UptoE.refl
      | some v =>
        cases v with
        | els l => exact ih l
        | _ => exact UptoE.refl
    | _ => exact UptoE.refl

theorem renderElement_upto (L : Lib) : ∀ (n m : Nat) (e : El), n ≤ m → Upto (renderElement L n e) (renderElement L m e)
  | 0, _, _, _ => ⟨fun _ => .inl rfl⟩
  | n + 1, 0, _, h => by omega
  | n + 1, m + 1, e, h => by
    unfold renderElement
    exact dispatch_upto (fun e => renderElement_upto L n m e (by omega)) (fun b e => plain_upto L _ n m e (by omega)) e

theorem documentTitle_upto {p p' : El → Except Err Text} (h : ∀ e, UptoE (p e) (p' e)) (t : Option (Attrs × Option (List El) × List El)) :
    UptoE (documentTitle p t) (documentTitle p' t) := by
  unfold documentTitle
  split
  · exact plainInline_upto h _
  · exact UptoE.refl

/-- To a greater depth, the result is the same, if there is one. -/
theorem render_upto (L : Lib) {n m : Nat} (h : n ≤ m) (d : Doc) (cfg : Config) : UptoE (render L n d cfg) (render L m d cfg) := by
  have hre := fun e => renderElement_upto L n m e h
  have hpl : ∀ (b : Bool) e, UptoE (plain L (if b then some Escape.escapeString else none) n e) (plain L (if b then some Escape.escapeString else none) m e) :=
    fun b e => plain_upto L _ n m e h
  unfold render
  dsimp only
  cases newContext d cfg with
  | error e => exact UptoE.refl
  | ok c =>
    dsimp only
    rcases (documentTitle_upto (fun e => hpl true e) (header d.elements)).out with h1 | h1
    · rw [h1]; exact ⟨.inl rfl⟩
    · rw [h1]
      split
      · exact UptoE.refl
      · rcases (renderParts_upto hre hpl cfg.wrap d).out (startContext d c) with h2 | h2
        · rw [h2]; exact ⟨.inl rfl⟩
        · rw [h2]; exact UptoE.refl

end Verif.Rend
