import Verif.Proofs.TemplateCheck
import Verif.Model.Templates
/-!
The templates of the HTML5 renderer write well-formed HTML, those of the XHTML5 renderer well-formed XHTML,
under requirements on the fields.
-/
namespace Verif.Html
open Verif.Tmpl

/-- The templates of the renderer for a language. -/
def templatesOf (R : Rules) : Templates := if R.xml then xhtml5 else html5

theorem forall_rules {P : Rules → Prop} (h1 : ∀ o, P ⟨false, o⟩) (h2 : ∀ o, P ⟨true, o⟩) : ∀ R, P R
  | ⟨false, o⟩ => h1 o
  | ⟨true, o⟩ => h2 o

def admonitionBlockFields : Fields := [("ID", .value), ("Roles", .value), ("Title", .markup), ("Content", .markup), ("Kind", .value), ("Icon", .markup)]
theorem admonitionBlock_ok : ∀ R : Rules, accepts R admonitionBlockFields [] (templatesOf R).admonitionBlock = true :=
  forall_rules (by decide +kernel) (by decide +kernel)

def admonitionParagraphFields : Fields := [("ID", .value), ("Roles", .value), ("Title", .markup), ("Content", .markup), ("Kind", .value), ("Icon", .markup)]
theorem admonitionParagraph_ok : ∀ R : Rules, accepts R admonitionParagraphFields [] (templatesOf R).admonitionParagraph = true :=
  forall_rules (by decide +kernel) (by decide +kernel)

def articleHeaderFields : Fields := [("Header", .markup), ("Details", .markup)]
theorem articleHeader_ok : ∀ R : Rules, accepts R articleHeaderFields [] (templatesOf R).articleHeader = true :=
  forall_rules (by decide +kernel) (by decide +kernel)

def blockImageFields : Fields := [("ID", .value), ("Roles", .value), ("Href", .value), ("Src", .value), ("Alt", .value), ("Width", .value), ("Height", .value), ("Caption", .markup), ("Title", .markup)]
theorem blockImage_ok : ∀ R : Rules, accepts R blockImageFields [] (templatesOf R).blockImage = true :=
  forall_rules (by decide +kernel) (by decide +kernel)

def boldTextFields : Fields := [("ID", .value), ("Roles", .value), ("Content", .markup)]
theorem boldText_ok : ∀ R : Rules, accepts R boldTextFields [] (templatesOf R).boldText = true :=
  forall_rules (by decide +kernel) (by decide +kernel)

def calloutListFields : Fields := [("ID", .value), ("Roles", .value), ("Title", .markup), ("Content", .markup)]
theorem calloutList_ok : ∀ R : Rules, accepts R calloutListFields [] (templatesOf R).calloutList = true :=
  forall_rules (by decide +kernel) (by decide +kernel)

def calloutListElementFields : Fields := [("Content", .markup)]
theorem calloutListElement_ok : ∀ R : Rules, accepts R calloutListElementFields [] (templatesOf R).calloutListElement = true :=
  forall_rules (by decide +kernel) (by decide +kernel)

def calloutRefFields : Fields := [("Ref", .markup)]
theorem calloutRef_ok : ∀ R : Rules, accepts R calloutRefFields [] (templatesOf R).calloutRef = true :=
  forall_rules (by decide +kernel) (by decide +kernel)

def documentDetailsFields : Fields := [("Authors", .markup), ("RevNumber", .markup), ("RevLabel", .markup), ("RevDate", .markup), ("RevRemark", .markup)]
theorem documentDetails_ok : ∀ R : Rules, accepts R documentDetailsFields [] (templatesOf R).documentDetails = true :=
  forall_rules (by decide +kernel) (by decide +kernel)

def documentAuthorDetailsFields : Fields := [("Name", .markup), ("Index", .value), ("Email", .both)]
theorem documentAuthorDetails_ok : ∀ R : Rules, accepts R documentAuthorDetailsFields [] (templatesOf R).documentAuthorDetails = true :=
  forall_rules (by decide +kernel) (by decide +kernel)

def embeddedParagraphFields : Fields := [("Class", .value), ("CheckStyle", .markup), ("Content", .markup)]
theorem embeddedParagraph_ok : ∀ R : Rules, accepts R embeddedParagraphFields [] (templatesOf R).embeddedParagraph = true :=
  forall_rules (by decide +kernel) (by decide +kernel)

def externalCrossReferenceFields : Fields := [("Href", .value), ("Label", .markup)]
theorem externalCrossReference_ok : ∀ R : Rules, accepts R externalCrossReferenceFields [] (templatesOf R).externalCrossReference = true :=
  forall_rules (by decide +kernel) (by decide +kernel)

def exampleBlockFields : Fields := [("ID", .value), ("Roles", .value), ("Title", .markup), ("Content", .markup), ("Caption", .markup)]
theorem exampleBlock_ok : ∀ R : Rules, accepts R exampleBlockFields [] (templatesOf R).exampleBlock = true :=
  forall_rules (by decide +kernel) (by decide +kernel)

def fencedBlockFields : Fields := [("ID", .value), ("Roles", .value), ("Title", .markup), ("Content", .markup)]
theorem fencedBlock_ok : ∀ R : Rules, accepts R fencedBlockFields [] (templatesOf R).fencedBlock = true :=
  forall_rules (by decide +kernel) (by decide +kernel)

def footnoteFields : Fields := [("ID", .both), ("Ref", .value)]
theorem footnote_ok : ∀ R : Rules, accepts R footnoteFields [] (templatesOf R).footnote = true :=
  forall_rules (by decide +kernel) (by decide +kernel)

def footnoteElementFields : Fields := [("ID", .both), ("Content", .markup)]
theorem footnoteElement_ok : ∀ R : Rules, accepts R footnoteElementFields [] (templatesOf R).footnoteElement = true :=
  forall_rules (by decide +kernel) (by decide +kernel)

def footnoteRefFields : Fields := [("ID", .both)]
theorem footnoteRef_ok : ∀ R : Rules, accepts R footnoteRefFields [] (templatesOf R).footnoteRef = true :=
  forall_rules (by decide +kernel) (by decide +kernel)

def footnotesFields : Fields := [("Content", .markup)]
theorem footnotes_ok : ∀ R : Rules, accepts R footnotesFields [] (templatesOf R).footnotes = true :=
  forall_rules (by decide +kernel) (by decide +kernel)

def iconFontFields : Fields := [("Class", .value), ("Size", .value), ("Rotate", .value), ("Flip", .value), ("Title", .value)]
theorem iconFont_ok : ∀ R : Rules, accepts R iconFontFields [] (templatesOf R).iconFont = true :=
  forall_rules (by decide +kernel) (by decide +kernel)

def iconImageFields : Fields := [("Src", .value), ("Alt", .value), ("Width", .value), ("Height", .value), ("Title", .value), ("Size", .value), ("Rotate", .value), ("Flip", .value)]
theorem iconImage_ok : ∀ R : Rules, accepts R iconImageFields [(.is "Alt", true)] (templatesOf R).iconImage = true :=
  forall_rules (by decide +kernel) (by decide +kernel)

def iconTextFields : Fields := [("Alt", .markup)]
theorem iconText_ok : ∀ R : Rules, accepts R iconTextFields [] (templatesOf R).iconText = true :=
  forall_rules (by decide +kernel) (by decide +kernel)

def inlineButtonFields : Fields := [(".", .markup)]
theorem inlineButton_ok : ∀ R : Rules, accepts R inlineButtonFields [] (templatesOf R).inlineButton = true :=
  forall_rules (by decide +kernel) (by decide +kernel)

def inlineIconFields : Fields := [("ID", .value), ("Role", .value), ("Link", .value), ("Window", .value), ("Icon", .markup)]
theorem inlineIcon_ok : ∀ R : Rules, accepts R inlineIconFields [] (templatesOf R).inlineIcon = true :=
  forall_rules (by decide +kernel) (by decide +kernel)

def inlineImageFields : Fields := [("Roles", .value), ("Href", .value), ("Src", .value), ("Alt", .value), ("Width", .value), ("Height", .value), ("Title", .value)]
theorem inlineImage_ok : ∀ R : Rules, accepts R inlineImageFields [] (templatesOf R).inlineImage = true :=
  forall_rules (by decide +kernel) (by decide +kernel)

def internalCrossReferenceFields : Fields := [("Href", .value), ("Label", .markup)]
theorem internalCrossReference_ok : ∀ R : Rules, accepts R internalCrossReferenceFields [] (templatesOf R).internalCrossReference = true :=
  forall_rules (by decide +kernel) (by decide +kernel)

def invalidFootnoteFields : Fields := [("Ref", .markup)]
theorem invalidFootnote_ok : ∀ R : Rules, accepts R invalidFootnoteFields [] (templatesOf R).invalidFootnote = true :=
  forall_rules (by decide +kernel) (by decide +kernel)

def italicTextFields : Fields := [("ID", .value), ("Roles", .value), ("Content", .markup)]
theorem italicText_ok : ∀ R : Rules, accepts R italicTextFields [] (templatesOf R).italicText = true :=
  forall_rules (by decide +kernel) (by decide +kernel)

def labeledListFields : Fields := [("ID", .value), ("Roles", .value), ("Title", .markup), ("Content", .markup)]
theorem labeledList_ok : ∀ R : Rules, accepts R labeledListFields [] (templatesOf R).labeledList = true :=
  forall_rules (by decide +kernel) (by decide +kernel)

def labeledListElementFields : Fields := [("Term", .markup), ("Content", .markup)]
theorem labeledListElement_ok : ∀ R : Rules, accepts R labeledListElementFields [] (templatesOf R).labeledListElement = true :=
  forall_rules (by decide +kernel) (by decide +kernel)

def labeledListHorizontalFields : Fields := [("ID", .value), ("Roles", .value), ("Title", .markup), ("Content", .markup)]
theorem labeledListHorizontal_ok : ∀ R : Rules, accepts R labeledListHorizontalFields [] (templatesOf R).labeledListHorizontal = true :=
  forall_rules (by decide +kernel) (by decide +kernel)

def lineBreakFields : Fields := []
theorem lineBreak_ok : ∀ R : Rules, accepts R lineBreakFields [] (templatesOf R).lineBreak = true :=
  forall_rules (by decide +kernel) (by decide +kernel)

def linkFields : Fields := [("ID", .value), ("URL", .value), ("Class", .value), ("Target", .value), ("Text", .markup)]
theorem link_ok : ∀ R : Rules, accepts R linkFields [] (templatesOf R).link = true :=
  forall_rules (by decide +kernel) (by decide +kernel)

def listingBlockFields : Fields := [("ID", .value), ("Roles", .value), ("Title", .markup), ("Content", .markup)]
theorem listingBlock_ok : ∀ R : Rules, accepts R listingBlockFields [] (templatesOf R).listingBlock = true :=
  forall_rules (by decide +kernel) (by decide +kernel)

def literalBlockFields : Fields := [("ID", .value), ("Roles", .value), ("Title", .markup), ("Content", .markup)]
theorem literalBlock_ok : ∀ R : Rules, accepts R literalBlockFields [(.is "Roles", false)] (templatesOf R).literalBlock = true :=
  forall_rules (by decide +kernel) (by decide +kernel)

def manpageHeaderFields : Fields := [("Header", .markup), ("Name", .markup), ("Content", .markup)]
theorem manpageHeader_ok : ∀ R : Rules, accepts R manpageHeaderFields [] (templatesOf R).manpageHeader = true :=
  forall_rules (by decide +kernel) (by decide +kernel)

def manpageNameParagraphFields : Fields := [("Content", .markup)]
theorem manpageNameParagraph_ok : ∀ R : Rules, accepts R manpageNameParagraphFields [] (templatesOf R).manpageNameParagraph = true :=
  forall_rules (by decide +kernel) (by decide +kernel)

def markdownQuoteBlockFields : Fields := [("ID", .value), ("Roles", .value), ("Title", .markup), ("Content", .markup), ("Attribution.First", .markup), ("Attribution.Second", .markup)]
theorem markdownQuoteBlock_ok : ∀ R : Rules, accepts R markdownQuoteBlockFields (if R.xml then [(.is "Attribution.Second", false)] else []) (templatesOf R).markdownQuoteBlock = true :=
  forall_rules (by decide +kernel) (by decide +kernel)

def markedTextFields : Fields := [("ID", .value), ("Roles", .value), ("Content", .markup)]
theorem markedText_ok : ∀ R : Rules, accepts R markedTextFields [] (templatesOf R).markedText = true :=
  forall_rules (by decide +kernel) (by decide +kernel)

def monospaceTextFields : Fields := [("ID", .value), ("Roles", .value), ("Content", .markup)]
theorem monospaceText_ok : ∀ R : Rules, accepts R monospaceTextFields [] (templatesOf R).monospaceText = true :=
  forall_rules (by decide +kernel) (by decide +kernel)

def openBlockFields : Fields := [("ID", .value), ("Roles", .value), ("Title", .markup), ("Content", .markup)]
theorem openBlock_ok : ∀ R : Rules, accepts R openBlockFields [] (templatesOf R).openBlock = true :=
  forall_rules (by decide +kernel) (by decide +kernel)

def orderedListFields : Fields := [("ID", .value), ("Roles", .value), ("Title", .markup), ("Content", .markup), ("Style", .value), ("ListStyle", .value), ("Start", .value)]
theorem orderedList_ok : ∀ R : Rules, accepts R orderedListFields (if R.xml then [(.is "Reversed", false)] else []) (templatesOf R).orderedList = true :=
  forall_rules (by decide +kernel) (by decide +kernel)

def orderedListElementFields : Fields := [("Content", .markup)]
theorem orderedListElement_ok : ∀ R : Rules, accepts R orderedListElementFields [] (templatesOf R).orderedListElement = true :=
  forall_rules (by decide +kernel) (by decide +kernel)

def passthroughBlockFields : Fields := [("Content", .markup)]
theorem passthroughBlock_ok : ∀ R : Rules, accepts R passthroughBlockFields [] (templatesOf R).passthroughBlock = true :=
  forall_rules (by decide +kernel) (by decide +kernel)

def paragraphFields : Fields := [("ID", .value), ("Roles", .value), ("Title", .markup), ("Content", .markup)]
theorem paragraph_ok : ∀ R : Rules, accepts R paragraphFields [] (templatesOf R).paragraph = true :=
  forall_rules (by decide +kernel) (by decide +kernel)

def preambleFields : Fields := [("Content", .markup), ("ToC", .markup)]
theorem preamble_ok : ∀ R : Rules, accepts R preambleFields [] (templatesOf R).preamble = true :=
  forall_rules (by decide +kernel) (by decide +kernel)

def qAndAListFields : Fields := [("ID", .value), ("Roles", .value), ("Title", .markup), ("Content", .markup)]
theorem qAndAList_ok : ∀ R : Rules, accepts R qAndAListFields [] (templatesOf R).qAndAList = true :=
  forall_rules (by decide +kernel) (by decide +kernel)

def qAndAListElementFields : Fields := [("Term", .markup), ("Content", .markup)]
theorem qAndAListElement_ok : ∀ R : Rules, accepts R qAndAListElementFields [] (templatesOf R).qAndAListElement = true :=
  forall_rules (by decide +kernel) (by decide +kernel)

def quoteBlockFields : Fields := [("ID", .value), ("Roles", .value), ("Title", .markup), ("Content", .markup), ("Attribution.First", .markup), ("Attribution.Second", .markup)]
theorem quoteBlock_ok : ∀ R : Rules, accepts R quoteBlockFields [] (templatesOf R).quoteBlock = true :=
  forall_rules (by decide +kernel) (by decide +kernel)

def quoteParagraphFields : Fields := [("ID", .value), ("Roles", .value), ("Title", .markup), ("Content", .markup), ("Attribution.First", .markup), ("Attribution.Second", .markup)]
theorem quoteParagraph_ok : ∀ R : Rules, accepts R quoteParagraphFields [] (templatesOf R).quoteParagraph = true :=
  forall_rules (by decide +kernel) (by decide +kernel)

def sectionContentFields : Fields := [("Level", .value), ("Roles", .value), ("Header", .markup), ("Content", .markup)]
theorem sectionContent_ok : ∀ R : Rules, accepts R sectionContentFields [] (templatesOf R).sectionContent = true :=
  forall_rules (by decide +kernel) (by decide +kernel)

def sidebarBlockFields : Fields := [("ID", .value), ("Roles", .value), ("Title", .markup), ("Content", .markup)]
theorem sidebarBlock_ok : ∀ R : Rules, accepts R sidebarBlockFields [] (templatesOf R).sidebarBlock = true :=
  forall_rules (by decide +kernel) (by decide +kernel)

def sourceBlockFields : Fields := [("ID", .value), ("Roles", .value), ("Title", .markup), ("Content", .markup), ("SyntaxHighlighter", .value), ("Language", .value)]
theorem sourceBlock_ok : ∀ R : Rules, accepts R sourceBlockFields [] (templatesOf R).sourceBlock = true :=
  forall_rules (by decide +kernel) (by decide +kernel)

def subscriptTextFields : Fields := [("ID", .value), ("Roles", .value), ("Content", .markup)]
theorem subscriptText_ok : ∀ R : Rules, accepts R subscriptTextFields [] (templatesOf R).subscriptText = true :=
  forall_rules (by decide +kernel) (by decide +kernel)

def superscriptTextFields : Fields := [("ID", .value), ("Roles", .value), ("Content", .markup)]
theorem superscriptText_ok : ∀ R : Rules, accepts R superscriptTextFields [] (templatesOf R).superscriptText = true :=
  forall_rules (by decide +kernel) (by decide +kernel)

def tableFields : Fields := [("ID", .value), ("Frame", .value), ("Grid", .value), ("Stripes", .value), ("Fit", .value), ("Float", .value), ("Roles", .value), ("Width", .value), ("Caption", .markup), ("Title", .markup), ("Columns", .values), ("Header", .markup), ("Body", .markup), ("Footer", .markup)]
theorem table_ok : ∀ R : Rules, accepts R tableFields [] (templatesOf R).table = true :=
  forall_rules (by decide +kernel) (by decide +kernel)

def tableBodyFields : Fields := [("Content", .markup)]
theorem tableBody_ok : ∀ R : Rules, accepts R tableBodyFields [] (templatesOf R).tableBody = true :=
  forall_rules (by decide +kernel) (by decide +kernel)

def tableCellFields : Fields := [("HAlign", .align), ("VAlign", .align), ("Content", .markup)]
theorem tableCell_ok : ∀ R : Rules, accepts R tableCellFields [] (templatesOf R).tableCell = true :=
  forall_rules (by decide +kernel) (by decide +kernel)

def tableCellBlockFields : Fields := [("Content", .markup)]
theorem tableCellBlock_ok : ∀ R : Rules, accepts R tableCellBlockFields [] (templatesOf R).tableCellBlock = true :=
  forall_rules (by decide +kernel) (by decide +kernel)

def tableHeaderFields : Fields := [("Content", .markup)]
theorem tableHeader_ok : ∀ R : Rules, accepts R tableHeaderFields [] (templatesOf R).tableHeader = true :=
  forall_rules (by decide +kernel) (by decide +kernel)

def tableHeaderCellFields : Fields := [("HAlign", .align), ("VAlign", .align), ("Content", .markup)]
theorem tableHeaderCell_ok : ∀ R : Rules, accepts R tableHeaderCellFields [] (templatesOf R).tableHeaderCell = true :=
  forall_rules (by decide +kernel) (by decide +kernel)

def tableFooterFields : Fields := [("Content", .markup)]
theorem tableFooter_ok : ∀ R : Rules, accepts R tableFooterFields [] (templatesOf R).tableFooter = true :=
  forall_rules (by decide +kernel) (by decide +kernel)

def tableFooterCellFields : Fields := [("HAlign", .align), ("VAlign", .align), ("Content", .markup)]
theorem tableFooterCell_ok : ∀ R : Rules, accepts R tableFooterCellFields [] (templatesOf R).tableFooterCell = true :=
  forall_rules (by decide +kernel) (by decide +kernel)

def tableRowFields : Fields := [("Content", .markup)]
theorem tableRow_ok : ∀ R : Rules, accepts R tableRowFields [] (templatesOf R).tableRow = true :=
  forall_rules (by decide +kernel) (by decide +kernel)

def thematicBreakFields : Fields := []
theorem thematicBreak_ok : ∀ R : Rules, accepts R thematicBreakFields [] (templatesOf R).thematicBreak = true :=
  forall_rules (by decide +kernel) (by decide +kernel)

def tocRootFields : Fields := [("Title", .markup), ("Sections", .markup)]
theorem tocRoot_ok : ∀ R : Rules, accepts R tocRootFields [] (templatesOf R).tocRoot = true :=
  forall_rules (by decide +kernel) (by decide +kernel)

def tocEntryFields : Fields := [("ID", .value), ("Number", .markup), ("Title", .markup), ("Content", .markup)]
theorem tocEntry_ok : ∀ R : Rules, accepts R tocEntryFields [] (templatesOf R).tocEntry = true :=
  forall_rules (by decide +kernel) (by decide +kernel)

def tocSectionFields : Fields := [("Level", .value), ("Content", .markup)]
theorem tocSection_ok : ∀ R : Rules, accepts R tocSectionFields [] (templatesOf R).tocSection = true :=
  forall_rules (by decide +kernel) (by decide +kernel)

def unorderedListFields : Fields := [("ID", .value), ("Roles", .value), ("Title", .markup), ("Content", .markup), ("Style", .value)]
theorem unorderedList_ok : ∀ R : Rules, accepts R unorderedListFields [] (templatesOf R).unorderedList = true :=
  forall_rules (by decide +kernel) (by decide +kernel)

def unorderedListElementFields : Fields := [("Content", .markup)]
theorem unorderedListElement_ok : ∀ R : Rules, accepts R unorderedListElementFields [] (templatesOf R).unorderedListElement = true :=
  forall_rules (by decide +kernel) (by decide +kernel)

def verseBlockFields : Fields := [("ID", .value), ("Roles", .value), ("Title", .markup), ("Content", .markup), ("Attribution.First", .markup), ("Attribution.Second", .markup)]
theorem verseBlock_ok : ∀ R : Rules, accepts R verseBlockFields [] (templatesOf R).verseBlock = true :=
  forall_rules (by decide +kernel) (by decide +kernel)

def verseParagraphFields : Fields := [("ID", .value), ("Roles", .value), ("Title", .markup), ("Content", .markup), ("Attribution.First", .markup), ("Attribution.Second", .markup)]
theorem verseParagraph_ok : ∀ R : Rules, accepts R verseParagraphFields [] (templatesOf R).verseParagraph = true :=
  forall_rules (by decide +kernel) (by decide +kernel)

end Verif.Html
