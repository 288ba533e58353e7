import Verif.Model.Template
/-!
The templates of the HTML5 and XHTML5 renderers.  Generated from `pkg/renderer/sgml/html5/*.go` and
`pkg/renderer/sgml/xhtml5/*.go` by `tools/tmpl2lean.py`: do not edit.
-/
namespace Verif
namespace Tmpl

namespace Html5

/-- html5/article.go:4-27 -/
def articleTmpl : Tm :=
  .text "<!DOCTYPE html>\n<html lang=\"en\">\n<head>\n<meta charset=\"UTF-8\">\n<meta http-equiv=\"X-UA-Compatible\" content=\"IE=edge\">\n<meta name=\"viewport\" content=\"width=device-width, initial-scale=1.0\">\n" <|
  .cond (.is "Generator") (.text "<meta name=\"generator\" content=\"" <| .out .asIs "Generator" <| .text "\">\n" .done) .done <|
  .cond (.is "Description") (.text "<meta name=\"description\" content=\"" <| .out .asIs "Description" <| .text "\">\n" .done) .done <|
  .cond (.is "Authors") (.text "<meta name=\"author\" content=\"" <| .out .asIs "Authors" <| .text "\">\n" .done) .done <|
  .loop "CSS" (.text "<link type=\"text/css\" rel=\"stylesheet\" href=\"" <| .out .asIs "$" <| .text "\">\n" .done) <|
  .text "<title>" <|
  .out .asIs "Title" <|
  .text "</title>\n</head>\n<body" <|
  .cond (.is "ID") (.text " id=\"" <| .out .asIs "ID" <| .text "\"" .done) .done <|
  .text " class=\"" <|
  .out .asIs "Doctype" <|
  .cond (.is "Roles") (.text " " <| .out .asIs "Roles" .done) .done <|
  .text "\">\n" <|
  .cond (.is "IncludeHTMLBodyHeader") (.out .asIs "Header" .done) .done <|
  .text "<div id=\"content\">\n" <|
  .out .asIs "Content" <|
  .text "</div>\n" <|
  .cond (.is "IncludeHTMLBodyFooter") (.text "<div id=\"footer\">\n<div id=\"footer-text\">\n" <| .cond (.is "RevNumber") (.text "Version " <| .out .asIs "RevNumber" <| .text "<br>\n" .done) .done <| .text "Last updated " <| .out .asIs "LastUpdated" <| .text "\n</div>\n</div>\n" .done) .done <|
  .text "</body>\n</html>\n" .done

/-- html5/article.go:29-32 -/
def articleHeaderTmpl : Tm :=
  .text "<div id=\"header\">\n<h1>" <|
  .out .asIs "Header" <|
  .text "</h1>\n" <|
  .cond (.is "Details") (.out .asIs "Details" .done) .done <|
  .text "</div>\n" .done

/-- html5/blank_line.go:4-4 -/
def lineBreakTmpl : Tm :=
  .text "<br>" .done

/-- html5/callout_list.go:5-11 -/
def calloutListTmpl : Tm :=
  .text "<div" <|
  .cond (.is "ID") (.text " id=\"" <| .out .asIs "ID" <| .text "\"" .done) .done <|
  .text " class=\"colist arabic" <|
  .cond (.is "Roles") (.text " " <| .out .asIs "Roles" .done) .done <|
  .text "\">\n" <|
  .cond (.is "Title") (.text "<div class=\"title\">" <| .out .asIs "Title" <| .text "</div>\n" .done) .done <|
  .text "<ol>\n" <|
  .out .asIs "Content" <|
  .text "</ol>\n</div>\n" .done

/-- html5/callout_list.go:14-14 -/
def calloutListElementTmpl : Tm :=
  .text "<li>\n" <|
  .out .asIs "Content" <|
  .text "</li>\n" .done

/-- html5/callout_list.go:17-17 -/
def calloutRefTmpl : Tm :=
  .text "<b class=\"conum\">(" <|
  .out .asIs "Ref" <|
  .text ")</b>" .done

/-- html5/cross_reference.go:4-4 -/
def internalCrossReferenceTmpl : Tm :=
  .text "<a href=\"#" <|
  .out .toLower "Href" <|
  .text "\">" <|
  .out .asIs "Label" <|
  .text "</a>" .done

/-- html5/cross_reference.go:5-5 -/
def externalCrossReferenceTmpl : Tm :=
  .text "<a href=\"" <|
  .out .asIs "Href" <|
  .text "\">" <|
  .out .asIs "Label" <|
  .text "</a>" .done

/-- html5/delimited_block_admonition_tmpl.go:4-12 -/
def admonitionBlockTmpl : Tm :=
  .text "<div " <|
  .cond (.is "ID") (.text "id=\"" <| .out .asIs "ID" <| .text "\" " .done) .done <|
  .text "class=\"admonitionblock " <|
  .out .asIs "Kind" <|
  .cond (.is "Roles") (.text " " <| .out .asIs "Roles" .done) .done <|
  .text "\">\n<table>\n<tr>\n<td class=\"icon\">\n" <|
  .out .asIs "Icon" <|
  .text "\n</td>\n<td class=\"content\">\n" <|
  .cond (.is "Title") (.text "<div class=\"title\">" <| .out .asIs "Title" <| .text "</div>\n" .done) .done <|
  .out .asIs "Content" <|
  .text "</td>\n</tr>\n</table>\n</div>\n" .done

/-- html5/delimited_block_example_tmpl.go:4-10 -/
def exampleBlockTmpl : Tm :=
  .text "<div " <|
  .cond (.is "ID") (.text "id=\"" <| .out .asIs "ID" <| .text "\" " .done) .done <|
  .text "class=\"exampleblock" <|
  .cond (.is "Roles") (.text " " <| .out .asIs "Roles" .done) .done <|
  .text "\">\n" <|
  .cond (.is "Title") (.text "<div class=\"title\">" <| .out .asIs "Caption" <| .out .asIs "Title" <| .text "</div>\n" .done) .done <|
  .text "<div class=\"content\">\n" <|
  .out .asIs "Content" <|
  .text "</div>\n</div>\n" .done

/-- html5/delimited_block_fenced_tmpl.go:4-10 -/
def fencedBlockTmpl : Tm :=
  .text "<div " <|
  .cond (.is "ID") (.text "id=\"" <| .out .asIs "ID" <| .text "\" " .done) .done <|
  .text "class=\"listingblock" <|
  .cond (.is "Roles") (.text " " <| .out .asIs "Roles" .done) .done <|
  .text "\">\n" <|
  .cond (.is "Title") (.text "<div class=\"title\">" <| .out .asIs "Title" <| .text "</div>\n" .done) .done <|
  .text "<div class=\"content\">\n<pre class=\"highlight\"><code>" <|
  .out .asIs "Content" <|
  .text "</code></pre>\n</div>\n</div>\n" .done

/-- html5/delimited_block_listing_tmpl.go:4-10 -/
def listingBlockTmpl : Tm :=
  .text "<div " <|
  .cond (.is "ID") (.text "id=\"" <| .out .asIs "ID" <| .text "\" " .done) .done <|
  .text "class=\"listingblock" <|
  .cond (.is "Roles") (.text " " <| .out .asIs "Roles" .done) .done <|
  .text "\">\n" <|
  .cond (.is "Title") (.text "<div class=\"title\">" <| .out .asIs "Title" <| .text "</div>\n" .done) .done <|
  .text "<div class=\"content\">\n<pre>" <|
  .out .asIs "Content" <|
  .text "</pre>\n</div>\n</div>\n" .done

/-- html5/delimited_block_literal_tmpl.go:4-10 -/
def literalBlockTmpl : Tm :=
  .text "<div " <|
  .cond (.is "ID") (.text "id=\"" <| .out .asIs "ID" <| .text "\" " .done) .done <|
  .text "class=\"literalblock\"" <|
  .cond (.is "Roles") (.text " " <| .out .asIs "Roles" .done) .done <|
  .text ">\n" <|
  .cond (.is "Title") (.text "<div class=\"title\">" <| .out .asIs "Title" <| .text "</div>\n" .done) .done <|
  .text "<div class=\"content\">\n<pre>" <|
  .out .asIs "Content" <|
  .text "</pre>\n</div>\n</div>\n" .done

/-- html5/delimited_block_markdown_quote_tmpl.go:4-16 -/
def markdownQuoteBlockTmpl : Tm :=
  .text "<div " <|
  .cond (.is "ID") (.text "id=\"" <| .out .asIs "ID" <| .text "\" " .done) .done <|
  .text "class=\"quoteblock" <|
  .cond (.is "Roles") (.text " " <| .out .asIs "Roles" .done) .done <|
  .text "\">\n" <|
  .cond (.is "Title") (.text "<div class=\"title\">" <| .out .asIs "Title" <| .text "</div>\n" .done) .done <|
  .text "<blockquote>\n" <|
  .cond (.is "Content") (.text "<div class=\"paragraph\">\n<p>" <| .out .asIs "Content" <| .text "</p>\n</div>\n" .done) .done <|
  .text "</blockquote>\n" <|
  .cond (.is "Attribution.First") (.text "<div class=\"attribution\">\n&#8212; " <| .out .asIs "Attribution.First" <| .cond (.is "Attribution.Second") (.text "<br>\n<cite>" <| .out .asIs "Attribution.Second" <| .text "</cite>" .done) .done <| .text "\n</div>\n" .done) .done <|
  .text "</div>\n" .done

/-- html5/delimited_block_open_tmpl.go:4-10 -/
def openBlockTmpl : Tm :=
  .text "<div " <|
  .cond (.is "ID") (.text "id=\"" <| .out .asIs "ID" <| .text "\" " .done) .done <|
  .text "class=\"openblock" <|
  .cond (.is "Roles") (.text " " <| .out .asIs "Roles" .done) .done <|
  .text "\">\n" <|
  .cond (.is "Title") (.text "<div class=\"title\">" <| .out .asIs "Title" <| .text "</div>\n" .done) .done <|
  .text "<div class=\"content\">\n" <|
  .out .asIs "Content" <|
  .text "</div>\n</div>\n" .done

/-- html5/delimited_block_passthrough_tmpl.go:6-6 -/
def passthroughBlock : Tm :=
  .out .asIs "Content" <|
  .text "\n" .done

/-- html5/delimited_block_quote_tmpl.go:4-14 -/
def quoteBlockTmpl : Tm :=
  .text "<div " <|
  .cond (.is "ID") (.text "id=\"" <| .out .asIs "ID" <| .text "\" " .done) .done <|
  .text "class=\"quoteblock" <|
  .cond (.is "Roles") (.text " " <| .out .asIs "Roles" .done) .done <|
  .text "\">\n" <|
  .cond (.is "Title") (.text "<div class=\"title\">" <| .out .asIs "Title" <| .text "</div>\n" .done) .done <|
  .text "<blockquote>\n" <|
  .out .asIs "Content" <|
  .text "</blockquote>\n" <|
  .cond (.is "Attribution.First") (.text "<div class=\"attribution\">\n&#8212; " <| .out .asIs "Attribution.First" <| .cond (.is "Attribution.Second") (.text "<br>\n<cite>" <| .out .asIs "Attribution.Second" <| .text "</cite>" .done) .done <| .text "\n</div>\n" .done) .done <|
  .text "</div>\n" .done

/-- html5/delimited_block_sidebar_tmpl.go:4-10 -/
def sidebarBlockTmpl : Tm :=
  .text "<div " <|
  .cond (.is "ID") (.text "id=\"" <| .out .asIs "ID" <| .text "\" " .done) .done <|
  .text "class=\"sidebarblock" <|
  .cond (.is "Roles") (.text " " <| .out .asIs "Roles" .done) .done <|
  .text "\">\n<div class=\"content\">\n" <|
  .cond (.is "Title") (.text "<div class=\"title\">" <| .out .asIs "Title" <| .text "</div>\n" .done) .done <|
  .out .asIs "Content" <|
  .text "</div>\n</div>\n" .done

/-- html5/delimited_block_source_tmpl.go:4-17 -/
def sourceBlockTmpl : Tm :=
  .text "<div " <|
  .cond (.is "ID") (.text "id=\"" <| .out .asIs "ID" <| .text "\" " .done) .done <|
  .text "class=\"listingblock" <|
  .cond (.is "Roles") (.text " " <| .out .asIs "Roles" .done) .done <|
  .text "\">\n" <|
  .cond (.is "Title") (.text "<div class=\"title\">" <| .out .asIs "Title" <| .text "</div>\n" .done) .done <|
  .text "<div class=\"content\">\n<pre class=\"" <|
  .cond (.is "SyntaxHighlighter") (.out .asIs "SyntaxHighlighter" <| .text " " .done) .done <|
  .text "highlight" <|
  .cond (.is "Nowrap") (.text " nowrap" .done) .done <|
  .text "\"><code" <|
  .cond (.is "Language") (.cond (.isNot "SyntaxHighlighter") (.text " class=\"language-" <| .out .asIs "Language" <| .text "\"" .done) .done <| .text " data-lang=\"" <| .out .asIs "Language" <| .text "\"" .done) .done <|
  .text ">" <|
  .out .asIs "Content" <|
  .text "</code></pre>\n</div>\n</div>\n" .done

/-- html5/delimited_block_verse_tmpl.go:4-11 -/
def verseBlockTmpl : Tm :=
  .text "<div " <|
  .cond (.is "ID") (.text "id=\"" <| .out .asIs "ID" <| .text "\" " .done) .done <|
  .text "class=\"verseblock" <|
  .cond (.is "Roles") (.text " " <| .out .asIs "Roles" .done) .done <|
  .text "\">\n" <|
  .cond (.is "Title") (.text "<div class=\"title\">" <| .out .asIs "Title" <| .text "</div>\n" .done) .done <|
  .text "<pre class=\"content\">" <|
  .out .asIs "Content" <|
  .text "</pre>\n" <|
  .cond (.is "Attribution.First") (.text "<div class=\"attribution\">\n&#8212; " <| .out .asIs "Attribution.First" <| .cond (.is "Attribution.Second") (.text "<br>\n<cite>" <| .out .asIs "Attribution.Second" <| .text "</cite>" .done) .done <| .text "\n</div>\n" .done) .done <|
  .text "</div>\n" .done

/-- html5/document_details.go:4-10 -/
def documentDetailsTmpl : Tm :=
  .text "<div class=\"details\">" <|
  .cond (.is "Authors") (.text "\n" <| .out .asIs "Authors" .done) .done <|
  .cond (.is "RevNumber") (.text "\n<span id=\"revnumber\">" <| .cond (.is "RevLabel") (.out .asIs "RevLabel" <| .text " " .done) .done <| .out .asIs "RevNumber" <| .cond (.is "RevDate") (.text "," .done) .done <| .text "</span>" .done) .done <|
  .cond (.is "RevDate") (.text "\n<span id=\"revdate\">" <| .out .asIs "RevDate" <| .text "</span>" .done) .done <|
  .cond (.is "RevRemark") (.text "\n<br><span id=\"revremark\">" <| .out .asIs "RevRemark" <| .text "</span>" .done) .done <|
  .text "\n</div>\n" .done

/-- html5/document_details.go:12-13 -/
def documentAuthorDetailsTmpl : Tm :=
  .cond (.is "Name") (.text "<span id=\"author" <| .out .asIs "Index" <| .text "\" class=\"author\">" <| .out .asIs "Name" <| .text "</span><br>" .done) .done <|
  .cond (.is "Email") (.text "\n<span id=\"email" <| .out .asIs "Index" <| .text "\" class=\"email\"><a href=\"mailto:" <| .out .asIs "Email" <| .text "\">" <| .out .asIs "Email" <| .text "</a></span><br>" .done) .done .done

/-- html5/footnote_reference.go:4-4 -/
def footnoteTmpl : Tm :=
  .text "<sup class=\"footnote\"" <|
  .cond (.is "Ref") (.text " id=\"_footnote_" <| .out .asIs "Ref" <| .text "\"" .done) .done <|
  .text ">[<a id=\"_footnoteref_" <|
  .out .asIs "ID" <|
  .text "\" class=\"footnote\" href=\"#_footnotedef_" <|
  .out .asIs "ID" <|
  .text "\" title=\"View footnote.\">" <|
  .out .asIs "ID" <|
  .text "</a>]</sup>" .done

/-- html5/footnote_reference.go:5-5 -/
def footnoteRefTmpl : Tm :=
  .text "<sup class=\"footnoteref\">[<a class=\"footnote\" href=\"#_footnotedef_" <|
  .out .asIs "ID" <|
  .text "\" title=\"View footnote.\">" <|
  .out .asIs "ID" <|
  .text "</a>]</sup>" .done

/-- html5/footnote_reference.go:6-6 -/
def invalidFootnoteTmpl : Tm :=
  .text "<sup class=\"footnoteref red\" title=\"Unresolved footnote reference.\">[" <|
  .out .asIs "Ref" <|
  .text "]</sup>" .done

/-- html5/footnote_reference.go:7-7 -/
def footnotesTmpl : Tm :=
  .text "<div id=\"footnotes\">\n<hr>\n" <|
  .out .asIs "Content" <|
  .text "</div>\n" .done

/-- html5/footnote_reference.go:10-12 -/
def footnoteElementTmpl : Tm :=
  .text "<div class=\"footnote\" id=\"_footnotedef_" <|
  .out .asIs "ID" <|
  .text "\">\n<a href=\"#_footnoteref_" <|
  .out .asIs "ID" <|
  .text "\">" <|
  .out .asIs "ID" <|
  .text "</a>. " <|
  .out .asIs "Content" <|
  .text "\n</div>\n" .done

/-- html5/icon.go:8-12 -/
def inlineIconTmpl : Tm :=
  .text "<span " <|
  .cond (.is "ID") (.text "id=\"" <| .out .asIs "ID" <| .text "\" " .done) .done <|
  .text "class=\"icon" <|
  .cond (.is "Role") (.text " " <| .out .asIs "Role" .done) .done <|
  .text "\">" <|
  .cond (.is "Link") (.text "<a class=\"image\" href=\"" <| .out .asIs "Link" <| .text "\"" <| .cond (.is "Window") (.text " target=\"" <| .out .asIs "Window" <| .text "\"" .done) .done <| .text ">" .done) .done <|
  .out .asIs "Icon" <|
  .cond (.is "Link") (.text "</a>" .done) .done <|
  .text "</span>" .done

/-- html5/icon.go:14-23 -/
def iconImageTmpl : Tm :=
  .text "<img src=\"" <|
  .out .asIs "Src" <|
  .text "\"" <|
  .cond (.is "Alt") (.text " alt=\"" <| .out .asIs "Alt" .done) .done <|
  .text "\"" <|
  .cond (.is "Width") (.text " width=\"" <| .out .asIs "Width" <| .text "\"" .done) .done <|
  .cond (.is "Height") (.text " height=\"" <| .out .asIs "Height" <| .text "\"" .done) .done <|
  .cond (.is "Title") (.text " title=\"" <| .out .asIs "Title" <| .text "\"" .done) .done <|
  .cond (.any ["Size", "Rotate", "Flip"]) (.text " class=\"" <| .cond (.is "Size") (.text "fa-" <| .out .asIs "Size" .done) .done <| .cond (.is "Rotate") (.cond (.is "Size") (.text " " .done) .done <| .text "fa-rotate-" <| .out .asIs "Rotate" .done) .done <| .cond (.is "Flip") (.cond (.any ["Size", "Rotate"]) (.text " " .done) .done <| .text "fa-flip-" <| .out .asIs "Flip" .done) .done <| .text "\"" .done) .done <|
  .text ">" .done

/-- html5/icon.go:25-30 -/
def iconFontTmpl : Tm :=
  .text "<i class=\"fa" <|
  .cond (.is "Admonition") (.text " icon-" <| .out .asIs "Class" .done) (.text " fa-" <| .out .asIs "Class" .done) <|
  .cond (.is "Size") (.text " fa-" <| .out .asIs "Size" .done) .done <|
  .cond (.is "Rotate") (.text " fa-rotate-" <| .out .asIs "Rotate" .done) .done <|
  .cond (.is "Flip") (.text " fa-flip-" <| .out .asIs "Flip" .done) .done <|
  .text "\"" <|
  .cond (.is "Title") (.text " title=\"" <| .out .asIs "Title" <| .text "\"" .done) .done <|
  .text "></i>" .done

/-- html5/icon.go:32-32 -/
def iconTextTmpl : Tm :=
  .cond (.is "Admonition") (.text "<div class=\"title\">" <| .out .asIs "Alt" <| .text "</div>" .done) (.text "[" <| .out .asIs "Alt" <| .text "]" .done) .done

/-- html5/image.go:4-11 -/
def blockImageTmpl : Tm :=
  .text "<div" <|
  .cond (.is "ID") (.text " id=\"" <| .out .asIs "ID" <| .text "\"" .done) .done <|
  .text " class=\"imageblock" <|
  .cond (.is "Roles") (.text " " <| .out .asIs "Roles" .done) .done <|
  .text "\">\n<div class=\"content\">\n" <|
  .cond (.nonEmpty "Href") (.text "<a class=\"image\" href=\"" <| .out .asIs "Href" <| .text "\">" .done) .done <|
  .text "<img src=\"" <|
  .out .asIs "Src" <|
  .text "\" alt=\"" <|
  .out .asIs "Alt" <|
  .text "\"" <|
  .cond (.is "Width") (.text " width=\"" <| .out .asIs "Width" <| .text "\"" .done) .done <|
  .cond (.is "Height") (.text " height=\"" <| .out .asIs "Height" <| .text "\"" .done) .done <|
  .text ">" <|
  .cond (.nonEmpty "Href") (.text "</a>" .done) .done <|
  .text "\n</div>" <|
  .cond (.is "Title") (.text "\n<div class=\"title\">" <| .out .asIs "Caption" <| .out .asIs "Title" <| .text "</div>\n" .done) (.text "\n" .done) <|
  .text "</div>\n" .done

/-- html5/image.go:12-12 -/
def inlineImageTmpl : Tm :=
  .text "<span class=\"image" <|
  .cond (.is "Roles") (.text " " <| .out .asIs "Roles" .done) .done <|
  .text "\">" <|
  .cond (.nonEmpty "Href") (.text "<a class=\"image\" href=\"" <| .out .asIs "Href" <| .text "\">" .done) .done <|
  .text "<img src=\"" <|
  .out .asIs "Src" <|
  .text "\" alt=\"" <|
  .out .asIs "Alt" <|
  .text "\"" <|
  .cond (.is "Width") (.text " width=\"" <| .out .asIs "Width" <| .text "\"" .done) .done <|
  .cond (.is "Height") (.text " height=\"" <| .out .asIs "Height" <| .text "\"" .done) .done <|
  .cond (.is "Title") (.text " title=\"" <| .out .asIs "Title" <| .text "\"" .done) .done <|
  .text ">" <|
  .cond (.nonEmpty "Href") (.text "</a>" .done) .done <|
  .text "</span>" .done

/-- html5/inline_button.go:5-5 -/
def inlineButtonTmpl : Tm :=
  .text "<b class=\"button\">" <|
  .out .asIs "." <|
  .text "</b>" .done

/-- html5/labeled_list.go:4-8 -/
def labeledListTmpl : Tm :=
  .text "<div" <|
  .cond (.is "ID") (.text " id=\"" <| .out .asIs "ID" <| .text "\"" .done) .done <|
  .text " class=\"dlist" <|
  .cond (.is "Roles") (.text " " <| .out .asIs "Roles" .done) .done <|
  .text "\">\n" <|
  .cond (.is "Title") (.text "<div class=\"title\">" <| .out .asIs "Title" <| .text "</div>\n" .done) .done <|
  .text "<dl>\n" <|
  .out .asIs "Content" <|
  .text "</dl>\n</div>\n" .done

/-- html5/labeled_list.go:10-11 -/
def labeledListElementTmpl : Tm :=
  .text "<dt class=\"hdlist1\">" <|
  .out .asIs "Term" <|
  .text "</dt>\n" <|
  .cond (.is "Content") (.text "<dd>\n" <| .out .asIs "Content" <| .text "</dd>\n" .done) .done .done

/-- html5/labeled_list.go:13-17 -/
def labeledListHorizontalTmpl : Tm :=
  .text "<div" <|
  .cond (.is "ID") (.text " id=\"" <| .out .asIs "ID" <| .text "\"" .done) .done <|
  .text " class=\"hdlist" <|
  .cond (.is "Roles") (.text " " <| .out .asIs "Roles" .done) .done <|
  .text "\">\n" <|
  .cond (.is "Title") (.text "<div class=\"title\">" <| .out .asIs "Title" <| .text "</div>\n" .done) .done <|
  .text "<table>\n" <|
  .out .asIs "Content" <|
  .text "</table>\n</div>\n" .done

/-- html5/labeled_list.go:20-23 -/
def labeledListHorizontalElementTmpl : Tm :=
  .cond (.isNot "Continuation") (.text "<tr>\n<td class=\"hdlist1\">\n" .done) (.text "<br>\n" .done) <|
  .out .asIs "Term" <|
  .text "\n" <|
  .cond (.is "Content") (.text "</td>\n<td class=\"hdlist2\">\n" <| .out .asIs "Content" <| .text "</td>\n</tr>\n" .done) .done .done

/-- html5/labeled_list.go:25-29 -/
def qAndAListTmpl : Tm :=
  .text "<div" <|
  .cond (.is "ID") (.text " id=\"" <| .out .asIs "ID" <| .text "\"" .done) .done <|
  .text " class=\"qlist qanda" <|
  .cond (.is "Roles") (.text " " <| .out .asIs "Roles" .done) .done <|
  .text "\">\n" <|
  .cond (.is "Title") (.text "<div class=\"title\">" <| .out .asIs "Title" <| .text "</div>\n" .done) .done <|
  .text "<ol>\n" <|
  .out .asIs "Content" <|
  .text "</ol>\n</div>\n" .done

/-- html5/labeled_list.go:31-31 -/
def qAndAListElementTmpl : Tm :=
  .text "<li>\n<p><em>" <|
  .out .asIs "Term" <|
  .text "</em></p>\n" <|
  .out .asIs "Content" <|
  .text "</li>\n" .done

/-- html5/link.go:4-4 -/
def linkTmpl : Tm :=
  .text "<a" <|
  .cond (.is "ID") (.text " id=\"" <| .out .asIs "ID" <| .text "\"" .done) .done <|
  .cond (.is "URL") (.text " href=\"" <| .out .asIs "URL" <| .text "\"" .done) .done <|
  .cond (.is "Class") (.text " class=\"" <| .out .asIs "Class" <| .text "\"" .done) .done <|
  .cond (.is "Target") (.text " target=\"" <| .out .asIs "Target" <| .text "\"" .done) .done <|
  .cond (.is "NoOpener") (.text " rel=\"noopener\"" .done) .done <|
  .text ">" <|
  .out .asIs "Text" <|
  .text "</a>" .done

/-- html5/manpage.go:4-10 -/
def manpageHeaderTmpl : Tm :=
  .cond (.is "IncludeH1") (.text "<div id=\"header\">\n<h1>" <| .out .asIs "Header" <| .text " Manual Page</h1>\n" .done) .done <|
  .text "<h2 id=\"_name\">" <|
  .out .asIs "Name" <|
  .text "</h2>\n<div class=\"sectionbody\">\n" <|
  .out .asIs "Content" <|
  .text "</div>\n" <|
  .cond (.is "IncludeH1") (.text "</div>\n" .done) .done .done

/-- html5/ordered_list.go:4-14 -/
def orderedListTmpl : Tm :=
  .text "<div" <|
  .cond (.is "ID") (.text " id=\"" <| .out .asIs "ID" <| .text "\"" .done) .done <|
  .text " class=\"olist " <|
  .out .asIs "Style" <|
  .cond (.is "Roles") (.text " " <| .out .asIs "Roles" .done) .done <|
  .text "\">\n" <|
  .cond (.is "Title") (.text "<div class=\"title\">" <| .out .asIs "Title" <| .text "</div>\n" .done) .done <|
  .text "<ol class=\"" <|
  .out .asIs "Style" <|
  .text "\"" <|
  .cond (.is "ListStyle") (.text " type=\"" <| .out .asIs "ListStyle" <| .text "\"" .done) .done <|
  .cond (.is "Start") (.text " start=\"" <| .out .asIs "Start" <| .text "\"" .done) .done <|
  .cond (.is "Reversed") (.text " reversed" .done) .done <|
  .text ">\n" <|
  .out .asIs "Content" <|
  .text "</ol>\n</div>\n" .done

/-- html5/ordered_list.go:16-16 -/
def orderedListElementTmpl : Tm :=
  .text "<li>\n" <|
  .out .asIs "Content" <|
  .text "</li>\n" .done

/-- html5/paragraph.go:4-8 -/
def paragraphTmpl : Tm :=
  .text "<div" <|
  .cond (.is "ID") (.text " id=\"" <| .out .asIs "ID" <| .text "\"" .done) .done <|
  .text " class=\"paragraph" <|
  .cond (.is "Roles") (.text " " <| .out .asIs "Roles" .done) .done <|
  .text "\">\n" <|
  .cond (.is "Title") (.text "<div class=\"title\">" <| .out .asIs "Title" <| .text "</div>\n" .done) .done <|
  .text "<p>" <|
  .out .asIs "Content" <|
  .text "</p>\n</div>\n" .done

/-- html5/paragraph.go:10-19 -/
def admonitionParagraphTmpl : Tm :=
  .cond (.is "Content") (.text "<div " <| .cond (.is "ID") (.text "id=\"" <| .out .asIs "ID" <| .text "\" " .done) .done <| .text "class=\"admonitionblock " <| .out .asIs "Kind" <| .cond (.is "Roles") (.text " " <| .out .asIs "Roles" .done) .done <| .text "\">\n<table>\n<tr>\n<td class=\"icon\">\n" <| .cond (.is "Icon") (.out .asIs "Icon" .done) .done <| .text "\n</td>\n<td class=\"content\">\n" <| .cond (.is "Title") (.text "<div class=\"title\">" <| .out .asIs "Title" <| .text "</div>\n" .done) .done <| .out .asIs "Content" <| .text "\n</td>\n</tr>\n</table>\n</div>\n" .done) .done .done

/-- html5/paragraph.go:21-21 -/
def embeddedParagraphTmpl : Tm :=
  .text "<p" <|
  .cond (.is "Class") (.text " class=\"" <| .out .asIs "Class" <| .text "\"" .done) .done <|
  .text ">" <|
  .out .asIs "CheckStyle" <|
  .out .asIs "Content" <|
  .text "</p>\n" .done

/-- html5/paragraph.go:23-28 -/
def verseParagraphTmpl : Tm :=
  .text "<div " <|
  .cond (.is "ID") (.text "id=\"" <| .out .asIs "ID" <| .text "\" " .done) .done <|
  .text "class=\"verseblock\">\n" <|
  .cond (.is "Title") (.text "<div class=\"title\">" <| .out .asIs "Title" <| .text "</div>\n" .done) .done <|
  .text "<pre class=\"content\">" <|
  .out .asIs "Content" <|
  .text "</pre>\n" <|
  .cond (.is "Attribution.First") (.text "<div class=\"attribution\">\n&#8212; " <| .out .asIs "Attribution.First" <| .cond (.is "Attribution.Second") (.text "<br>\n<cite>" <| .out .asIs "Attribution.Second" <| .text "</cite>\n" .done) (.text "\n" .done) <| .text "</div>\n" .done) .done <|
  .text "</div>\n" .done

/-- html5/paragraph.go:30-37 -/
def quoteParagraphTmpl : Tm :=
  .text "<div " <|
  .cond (.is "ID") (.text "id=\"" <| .out .asIs "ID" <| .text "\" " .done) .done <|
  .text "class=\"quoteblock\">\n" <|
  .cond (.is "Title") (.text "<div class=\"title\">" <| .out .asIs "Title" <| .text "</div>\n" .done) .done <|
  .text "<blockquote>\n" <|
  .out .asIs "Content" <|
  .text "\n</blockquote>\n" <|
  .cond (.is "Attribution.First") (.text "<div class=\"attribution\">\n&#8212; " <| .out .asIs "Attribution.First" <| .cond (.is "Attribution.Second") (.text "<br>\n<cite>" <| .out .asIs "Attribution.Second" <| .text "</cite>\n" .done) (.text "\n" .done) <| .text "</div>\n" .done) .done <|
  .text "</div>\n" .done

/-- html5/paragraph.go:39-39 -/
def manpageNameParagraphTmpl : Tm :=
  .text "<p>" <|
  .out .asIs "Content" <|
  .text "</p>\n" .done

/-- html5/paragraph.go:41-41 -/
def thematicBreakTmpl : Tm :=
  .text "<hr>\n" .done

/-- html5/preamble.go:4-8 -/
def preambleTmpl : Tm :=
  .cond (.is "Wrapper") (.text "<div id=\"preamble\">\n<div class=\"sectionbody\">\n" .done) .done <|
  .out .asIs "Content" <|
  .cond (.is "Wrapper") (.text "</div>\n" <| .cond (.is "ToC") (.out .asIs "ToC" .done) .done <| .text "</div>\n" .done) .done .done

/-- html5/quoted_text.go:4-4 -/
def boldTextTmpl : Tm :=
  .text "<strong" <|
  .cond (.is "ID") (.text " id=\"" <| .out .asIs "ID" <| .text "\"" .done) .done <|
  .cond (.is "Roles") (.text " class=\"" <| .out .asIs "Roles" <| .text "\"" .done) .done <|
  .text ">" <|
  .out .asIs "Content" <|
  .text "</strong>" .done

/-- html5/quoted_text.go:5-5 -/
def italicTextTmpl : Tm :=
  .text "<em" <|
  .cond (.is "ID") (.text " id=\"" <| .out .asIs "ID" <| .text "\"" .done) .done <|
  .cond (.is "Roles") (.text " class=\"" <| .out .asIs "Roles" <| .text "\"" .done) .done <|
  .text ">" <|
  .out .asIs "Content" <|
  .text "</em>" .done

/-- html5/quoted_text.go:6-6 -/
def monospaceTextTmpl : Tm :=
  .text "<code" <|
  .cond (.is "ID") (.text " id=\"" <| .out .asIs "ID" <| .text "\"" .done) .done <|
  .cond (.is "Roles") (.text " class=\"" <| .out .asIs "Roles" <| .text "\"" .done) .done <|
  .text ">" <|
  .out .asIs "Content" <|
  .text "</code>" .done

/-- html5/quoted_text.go:7-7 -/
def subscriptTextTmpl : Tm :=
  .text "<sub" <|
  .cond (.is "ID") (.text " id=\"" <| .out .asIs "ID" <| .text "\"" .done) .done <|
  .cond (.is "Roles") (.text " class=\"" <| .out .asIs "Roles" <| .text "\"" .done) .done <|
  .text ">" <|
  .out .asIs "Content" <|
  .text "</sub>" .done

/-- html5/quoted_text.go:8-8 -/
def superscriptTextTmpl : Tm :=
  .text "<sup" <|
  .cond (.is "ID") (.text " id=\"" <| .out .asIs "ID" <| .text "\"" .done) .done <|
  .cond (.is "Roles") (.text " class=\"" <| .out .asIs "Roles" <| .text "\"" .done) .done <|
  .text ">" <|
  .out .asIs "Content" <|
  .text "</sup>" .done

/-- html5/quoted_text.go:9-9 -/
def markedTextTmpl : Tm :=
  .cond (.is "Roles") (.text "<span" .done) (.text "<mark" .done) <|
  .cond (.is "ID") (.text " id=\"" <| .out .asIs "ID" <| .text "\"" .done) .done <|
  .cond (.is "Roles") (.text " class=\"" <| .out .asIs "Roles" <| .text "\"" .done) .done <|
  .text ">" <|
  .out .asIs "Content" <|
  .cond (.is "Roles") (.text "</span>" .done) (.text "</mark>" .done) .done

/-- html5/section.go:5-9 -/
def sectionContentTmpl : Tm :=
  .text "<div class=\"sect" <|
  .out .asIs "Level" <|
  .cond (.is "Roles") (.text " " <| .out .asIs "Roles" .done) .done <|
  .text "\">\n" <|
  .out .asIs "Header" <|
  .cond (.equals "Level" 1) (.text "<div class=\"sectionbody\">\n" .done) .done <|
  .out .asIs "Content" <|
  .cond (.equals "Level" 1) (.text "</div>\n" .done) .done <|
  .text "</div>\n" .done

/-- html5/section.go:10-11 -/
def sectionTitleTmpl : Tm :=
  .text "<h" <|
  .out .asIs "LevelPlusOne" <|
  .text " id=\"" <|
  .out .toLower "ID" <|
  .text "\">" <|
  .cond (.is "Number") (.out .asIs "Number" <| .text ". " .done) .done <|
  .out .asIs "Content" <|
  .text "</h" <|
  .out .asIs "LevelPlusOne" <|
  .text ">\n" .done

/-- html5/table.go:4-23 -/
def tableTmpl : Tm :=
  .text "<table " <|
  .cond (.is "ID") (.text "id=\"" <| .out .asIs "ID" <| .text "\" " .done) .done <|
  .text "class=\"tableblock frame-" <|
  .out .asIs "Frame" <|
  .text " grid-" <|
  .out .asIs "Grid" <|
  .cond (.is "Stripes") (.text " stripes-" <| .out .asIs "Stripes" .done) .done <|
  .cond (.is "Fit") (.text " " <| .out .asIs "Fit" .done) .done <|
  .cond (.is "Float") (.text " " <| .out .asIs "Float" .done) .done <|
  .cond (.is "Roles") (.text " " <| .out .asIs "Roles" .done) .done <|
  .text "\"" <|
  .cond (.is "Width") (.text " style=\"width: " <| .out .asIs "Width" <| .text "%;\"" .done) .done <|
  .text ">\n" <|
  .cond (.is "Title") (.text "<caption class=\"title\">" <| .out .asIs "Caption" <| .out .asIs "Title" <| .text "</caption>\n" .done) .done <|
  .cond (.is "Body") (.text "<colgroup>\n" <| .loop "Columns" (.text "<col" <| .cond (.is "$") (.text " style=\"width: " <| .out .asIs "$" <| .text "%;\"" .done) .done <| .text ">\n" .done) <| .text "</colgroup>\n" <| .out .asIs "Header" <| .out .asIs "Body" <| .out .asIs "Footer" .done) .done <|
  .text "</table>\n" .done

/-- html5/table.go:25-25 -/
def tableBodyTmpl : Tm :=
  .cond (.is "Content") (.text "<tbody>\n" <| .out .asIs "Content" <| .text "</tbody>\n" .done) .done .done

/-- html5/table.go:27-27 -/
def tableHeaderTmpl : Tm :=
  .cond (.is "Content") (.text "<thead>\n<tr>\n" <| .out .asIs "Content" <| .text "</tr>\n</thead>\n" .done) .done .done

/-- html5/table.go:29-29 -/
def tableHeaderCellTmpl : Tm :=
  .text "<th class=\"tableblock " <|
  .out .halign "HAlign" <|
  .text " " <|
  .out .valign "VAlign" <|
  .text "\">" <|
  .out .asIs "Content" <|
  .text "</th>\n" .done

/-- html5/table.go:31-31 -/
def tableFooterTmpl : Tm :=
  .cond (.is "Content") (.text "<tfoot>\n<tr>\n" <| .out .asIs "Content" <| .text "</tr>\n</tfoot>\n" .done) .done .done

/-- html5/table.go:33-33 -/
def tableFooterCellTmpl : Tm :=
  .text "<td class=\"tableblock " <|
  .out .halign "HAlign" <|
  .text " " <|
  .out .valign "VAlign" <|
  .text "\"><p class=\"tableblock\">" <|
  .out .asIs "Content" <|
  .text "</p></td>\n" .done

/-- html5/table.go:35-35 -/
def tableRowTmpl : Tm :=
  .text "<tr>\n" <|
  .out .asIs "Content" <|
  .text "</tr>\n" .done

/-- html5/table.go:37-37 -/
def tableCellTmpl : Tm :=
  .text "<td class=\"tableblock " <|
  .out .halign "HAlign" <|
  .text " " <|
  .out .valign "VAlign" <|
  .text "\">" <|
  .out .asIs "Content" <|
  .text "</td>\n" .done

/-- html5/table.go:39-39 -/
def tableCellBlockTmpl : Tm :=
  .text "<div class=\"content\">" <|
  .out .trimLineFeedSuffix "Content" <|
  .text "</div>" .done

/-- html5/table_of_contents.go:4-7 -/
def tocRootTmpl : Tm :=
  .text "<div id=\"toc\" class=\"toc\">\n<div id=\"toctitle\">" <|
  .out .asIs "Title" <|
  .text "</div>\n" <|
  .out .asIs "Sections" <|
  .text "</div>\n" .done

/-- html5/table_of_contents.go:9-9 -/
def tocSectionTmpl : Tm :=
  .text "<ul class=\"sectlevel" <|
  .out .asIs "Level" <|
  .text "\">\n" <|
  .out .asIs "Content" <|
  .text "</ul>\n" .done

/-- html5/table_of_contents.go:11-12 -/
def tocEntryTmpl : Tm :=
  .text "<li><a href=\"#" <|
  .out .toLower "ID" <|
  .text "\">" <|
  .cond (.is "Number") (.out .asIs "Number" <| .text ". " .done) .done <|
  .out .asIs "Title" <|
  .text "</a>" <|
  .cond (.is "Content") (.text "\n" <| .out .asIs "Content" .done) .done <|
  .text "</li>\n" .done

/-- html5/unordered_list.go:4-11 -/
def unorderedListTmpl : Tm :=
  .text "<div" <|
  .cond (.is "ID") (.text " id=\"" <| .out .asIs "ID" <| .text "\"" .done) .done <|
  .text " class=\"ulist" <|
  .cond (.is "Checklist") (.text " checklist" .done) .done <|
  .cond (.is "Style") (.text " " <| .out .asIs "Style" .done) .done <|
  .cond (.is "Roles") (.text " " <| .out .asIs "Roles" .done) .done <|
  .text "\">\n" <|
  .cond (.is "Title") (.text "<div class=\"title\">" <| .out .asIs "Title" <| .text "</div>\n" .done) .done <|
  .text "<ul" <|
  .cond (.is "Checklist") (.text " class=\"checklist\"" .done) (.cond (.is "Style") (.text " class=\"" <| .out .asIs "Style" <| .text "\"" .done) .done .done) <|
  .text ">\n" <|
  .out .asIs "Content" <|
  .text "</ul>\n</div>\n" .done

/-- html5/unordered_list.go:13-13 -/
def unorderedListElementTmpl : Tm :=
  .text "<li>\n" <|
  .out .asIs "Content" <|
  .text "</li>\n" .done

end Html5

namespace Xhtml5

/-- xhtml5/article.go:4-29 -/
def articleTmpl : Tm :=
  .text "<!DOCTYPE html>\n<html xmlns=\"https://www.w3.org/1999/xhtml\" lang=\"en\">\n<head>\n<meta charset=\"UTF-8\"/>\n<meta http-equiv=\"X-UA-Compatible\" content=\"IE=edge\"/>\n<meta name=\"viewport\" content=\"width=device-width, initial-scale=1.0\"/>\n" <|
  .cond (.is "Generator") (.text "<meta name=\"generator\" content=\"" <| .out .asIs "Generator" <| .text "\"/>\n" .done) .done <|
  .cond (.is "Authors") (.text "<meta name=\"author\" content=\"" <| .out .asIs "Authors" <| .text "\"/>\n" .done) .done <|
  .loop "CSS" (.text "<link type=\"text/css\" rel=\"stylesheet\" href=\"" <| .out .asIs "$" <| .text "\"/>\n" .done) <|
  .text "<title>" <|
  .out .asIs "Title" <|
  .text "</title>\n</head>\n<body" <|
  .cond (.is "ID") (.text " id=\"" <| .out .asIs "ID" <| .text "\"" .done) .done <|
  .text " class=\"" <|
  .out .asIs "Doctype" <|
  .cond (.is "Roles") (.text " " <| .out .asIs "Roles" .done) .done <|
  .text "\">\n" <|
  .cond (.is "IncludeHTMLBodyHeader") (.out .asIs "Header" .done) .done <|
  .text "<div id=\"content\">\n" <|
  .out .asIs "Content" <|
  .text "</div>\n" <|
  .cond (.is "IncludeHTMLBodyFooter") (.text "<div id=\"footer\">\n<div id=\"footer-text\">\n" <| .cond (.is "RevNumber") (.text "Version " <| .out .asIs "RevNumber" <| .text "<br/>\n" .done) .done <| .text "Last updated " <| .out .asIs "LastUpdated" <| .text "\n</div>\n</div>\n" .done) .done <|
  .text "</body>\n</html>\n" .done

/-- xhtml5/blank_line.go:4-4 -/
def lineBreakTmpl : Tm :=
  .text "<br/>" .done

/-- xhtml5/delimited_block_quote_tmpl.go:4-14 -/
def quoteBlockTmpl : Tm :=
  .text "<div " <|
  .cond (.is "ID") (.text "id=\"" <| .out .asIs "ID" <| .text "\" " .done) .done <|
  .text "class=\"quoteblock" <|
  .cond (.is "Roles") (.text " " <| .out .asIs "Roles" .done) .done <|
  .text "\">\n" <|
  .cond (.is "Title") (.text "<div class=\"title\">" <| .out .asIs "Title" <| .text "</div>\n" .done) .done <|
  .text "<blockquote>\n" <|
  .out .asIs "Content" <|
  .text "</blockquote>\n" <|
  .cond (.is "Attribution.First") (.text "<div class=\"attribution\">\n&#8212; " <| .out .asIs "Attribution.First" <| .cond (.is "Attribution.Second") (.text "<br/>\n<cite>" <| .out .asIs "Attribution.Second" <| .text "</cite>" .done) .done <| .text "\n</div>\n" .done) .done <|
  .text "</div>\n" .done

/-- xhtml5/delimited_block_verse_tmpl.go:4-11 -/
def verseBlockTmpl : Tm :=
  .text "<div " <|
  .cond (.is "ID") (.text "id=\"" <| .out .asIs "ID" <| .text "\" " .done) .done <|
  .text "class=\"verseblock" <|
  .cond (.is "Roles") (.text " " <| .out .asIs "Roles" .done) .done <|
  .text "\">\n" <|
  .cond (.is "Title") (.text "<div class=\"title\">" <| .out .asIs "Title" <| .text "</div>\n" .done) .done <|
  .text "<pre class=\"content\">" <|
  .out .asIs "Content" <|
  .text "</pre>\n" <|
  .cond (.is "Attribution.First") (.text "<div class=\"attribution\">\n&#8212; " <| .out .asIs "Attribution.First" <| .cond (.is "Attribution.Second") (.text "<br/>\n<cite>" <| .out .asIs "Attribution.Second" <| .text "</cite>" .done) .done <| .text "\n</div>\n" .done) .done <|
  .text "</div>\n" .done

/-- xhtml5/document_details.go:4-10 -/
def documentDetailsTmpl : Tm :=
  .text "<div class=\"details\">" <|
  .cond (.is "Authors") (.text "\n" <| .out .asIs "Authors" .done) .done <|
  .cond (.is "RevNumber") (.text "\n<span id=\"revnumber\">" <| .cond (.is "RevLabel") (.out .asIs "RevLabel" <| .text " " .done) .done <| .out .asIs "RevNumber" <| .cond (.is "RevDate") (.text "," .done) .done <| .text "</span>" .done) .done <|
  .cond (.is "RevDate") (.text "\n<span id=\"revdate\">" <| .out .asIs "RevDate" <| .text "</span>" .done) .done <|
  .cond (.is "RevRemark") (.text "\n<br/><span id=\"revremark\">" <| .out .asIs "RevRemark" <| .text "</span>" .done) .done <|
  .text "\n</div>\n" .done

/-- xhtml5/document_details.go:12-13 -/
def documentAuthorDetailsTmpl : Tm :=
  .cond (.is "Name") (.text "<span id=\"author" <| .out .asIs "Index" <| .text "\" class=\"author\">" <| .out .asIs "Name" <| .text "</span><br/>" .done) .done <|
  .cond (.is "Email") (.text "\n<span id=\"email" <| .out .asIs "Index" <| .text "\" class=\"email\"><a href=\"mailto:" <| .out .asIs "Email" <| .text "\">" <| .out .asIs "Email" <| .text "</a></span><br/>" .done) .done .done

/-- xhtml5/footnote_reference.go:4-4 -/
def footnotesTmpl : Tm :=
  .text "<div id=\"footnotes\">\n<hr/>\n" <|
  .out .asIs "Content" <|
  .text "</div>\n" .done

/-- xhtml5/icon.go:11-20 -/
def iconImageTmpl : Tm :=
  .text "<img src=\"" <|
  .out .asIs "Src" <|
  .text "\"" <|
  .cond (.is "Alt") (.text " alt=\"" <| .out .asIs "Alt" .done) .done <|
  .text "\"" <|
  .cond (.is "Width") (.text " width=\"" <| .out .asIs "Width" <| .text "\"" .done) .done <|
  .cond (.is "Height") (.text " height=\"" <| .out .asIs "Height" <| .text "\"" .done) .done <|
  .cond (.is "Title") (.text " title=\"" <| .out .asIs "Title" <| .text "\"" .done) .done <|
  .cond (.any ["Size", "Rotate", "Flip"]) (.text " class=\"" <| .cond (.is "Size") (.text "fa-" <| .out .asIs "Size" .done) .done <| .cond (.is "Rotate") (.cond (.is "Size") (.text " " .done) .done <| .text "fa-rotate-" <| .out .asIs "Rotate" .done) .done <| .cond (.is "Flip") (.cond (.any ["Size", "Rotate"]) (.text " " .done) .done <| .text "fa-flip-" <| .out .asIs "Flip" .done) .done <| .text "\"" .done) .done <|
  .text "/>" .done

/-- xhtml5/image.go:4-15 -/
def blockImageTmpl : Tm :=
  .text "<div" <|
  .cond (.is "ID") (.text " id=\"" <| .out .asIs "ID" <| .text "\"" .done) .done <|
  .text " class=\"imageblock" <|
  .cond (.is "Roles") (.text " " <| .out .asIs "Roles" .done) .done <|
  .text "\">\n<div class=\"content\">\n" <|
  .cond (.is "Href") (.text "<a class=\"image\" href=\"" <| .out .asIs "Href" <| .text "\">" .done) .done <|
  .text "<img src=\"" <|
  .out .asIs "Src" <|
  .text "\" alt=\"" <|
  .out .asIs "Alt" <|
  .text "\"" <|
  .cond (.is "Width") (.text " width=\"" <| .out .asIs "Width" <| .text "\"" .done) .done <|
  .cond (.is "Height") (.text " height=\"" <| .out .asIs "Height" <| .text "\"" .done) .done <|
  .text "/>" <|
  .cond (.is "Href") (.text "</a>" .done) .done <|
  .text "\n</div>\n" <|
  .cond (.is "Title") (.text "<div class=\"title\">" <| .out .asIs "Caption" <| .out .asIs "Title" <| .text "</div>\n" .done) .done <|
  .text "</div>\n" .done

/-- xhtml5/image.go:17-23 -/
def inlineImageTmpl : Tm :=
  .text "<span class=\"image" <|
  .cond (.is "Roles") (.text " " <| .out .asIs "Roles" .done) .done <|
  .text "\">" <|
  .cond (.is "Href") (.text "<a class=\"image\" href=\"" <| .out .asIs "Href" <| .text "\">" .done) .done <|
  .text "<img src=\"" <|
  .out .asIs "Src" <|
  .text "\" alt=\"" <|
  .out .asIs "Alt" <|
  .text "\"" <|
  .cond (.is "Width") (.text " width=\"" <| .out .asIs "Width" <| .text "\"" .done) .done <|
  .cond (.is "Height") (.text " height=\"" <| .out .asIs "Height" <| .text "\"" .done) .done <|
  .cond (.is "Title") (.text " title=\"" <| .out .asIs "Title" <| .text "\"" .done) .done <|
  .text "/>" <|
  .cond (.is "Href") (.text "</a>" .done) .done <|
  .text "</span>" .done

/-- xhtml5/labeled_list.go:4-7 -/
def labeledListHorizontalItemTmpl : Tm :=
  .cond (.isNot "Continuation") (.text "<tr>\n<td class=\"hdlist1\">\n" .done) (.text "<br/>\n" .done) <|
  .out .asIs "Term" <|
  .text "\n" <|
  .cond (.is "Content") (.text "</td>\n<td class=\"hdlist2\">\n" <| .out .asIs "Content" <| .text "</td>\n</tr>\n" .done) .done .done

/-- xhtml5/paragraph.go:4-9 -/
def verseParagraphTmpl : Tm :=
  .text "<div " <|
  .cond (.is "ID") (.text "id=\"" <| .out .asIs "ID" <| .text "\" " .done) .done <|
  .text "class=\"verseblock\">\n" <|
  .cond (.is "Title") (.text "<div class=\"title\">" <| .out .asIs "Title" <| .text "</div>\n" .done) .done <|
  .text "<pre class=\"content\">" <|
  .out .asIs "Content" <|
  .text "</pre>\n" <|
  .cond (.is "Attribution.First") (.text "<div class=\"attribution\">\n&#8212; " <| .out .asIs "Attribution.First" <| .cond (.is "Attribution.Second") (.text "<br/>\n<cite>" <| .out .asIs "Attribution.Second" <| .text "</cite>\n" .done) (.text "\n" .done) <| .text "</div>\n" .done) .done <|
  .text "</div>\n" .done

/-- xhtml5/paragraph.go:11-18 -/
def quoteParagraphTmpl : Tm :=
  .text "<div " <|
  .cond (.is "ID") (.text "id=\"" <| .out .asIs "ID" <| .text "\" " .done) .done <|
  .text "class=\"quoteblock\">\n" <|
  .cond (.is "Title") (.text "<div class=\"title\">" <| .out .asIs "Title" <| .text "</div>\n" .done) .done <|
  .text "<blockquote>\n" <|
  .out .asIs "Content" <|
  .text "\n</blockquote>\n" <|
  .cond (.is "Attribution.First") (.text "<div class=\"attribution\">\n&#8212; " <| .out .asIs "Attribution.First" <| .cond (.is "Attribution.Second") (.text "<br/>\n<cite>" <| .out .asIs "Attribution.Second" <| .text "</cite>\n" .done) (.text "\n" .done) <| .text "</div>\n" .done) .done <|
  .text "</div>\n" .done

/-- xhtml5/paragraph.go:20-20 -/
def thematicBreakTmpl : Tm :=
  .text "<hr/>\n" .done

/-- xhtml5/table.go:4-23 -/
def tableTmpl : Tm :=
  .text "<table " <|
  .cond (.is "ID") (.text "id=\"" <| .out .asIs "ID" <| .text "\" " .done) .done <|
  .text "class=\"tableblock frame-" <|
  .out .asIs "Frame" <|
  .text " grid-" <|
  .out .asIs "Grid" <|
  .cond (.is "Stripes") (.text " stripes-" <| .out .asIs "Stripes" .done) .done <|
  .cond (.is "Fit") (.text " " <| .out .asIs "Fit" .done) .done <|
  .cond (.is "Float") (.text " " <| .out .asIs "Float" .done) .done <|
  .cond (.is "Roles") (.text " " <| .out .asIs "Roles" .done) .done <|
  .text "\"" <|
  .cond (.is "Width") (.text " style=\"width: " <| .out .asIs "Width" <| .text "%;\"" .done) .done <|
  .text ">\n" <|
  .cond (.is "Title") (.text "<caption class=\"title\">" <| .out .asIs "Caption" <| .out .asIs "Title" <| .text "</caption>\n" .done) .done <|
  .cond (.is "Body") (.text "<colgroup>\n" <| .loop "Columns" (.text "<col" <| .cond (.is "$") (.text " style=\"width: " <| .out .asIs "$" <| .text "%;\"" .done) .done <| .text "/>\n" .done) <| .text "</colgroup>\n" <| .out .asIs "Header" <| .out .asIs "Body" <| .out .asIs "Footer" .done) .done <|
  .text "</table>\n" .done

end Xhtml5

/-- templates.go:4-81 `Templates` (without `InlineMenu`). -/
structure Templates where
  admonitionBlock : Tm
  admonitionParagraph : Tm
  article : Tm
  articleHeader : Tm
  blockImage : Tm
  boldText : Tm
  calloutList : Tm
  calloutListElement : Tm
  calloutRef : Tm
  documentDetails : Tm
  documentAuthorDetails : Tm
  embeddedParagraph : Tm
  externalCrossReference : Tm
  exampleBlock : Tm
  fencedBlock : Tm
  footnote : Tm
  footnoteElement : Tm
  footnoteRef : Tm
  footnotes : Tm
  iconFont : Tm
  iconImage : Tm
  iconText : Tm
  inlineButton : Tm
  inlineIcon : Tm
  inlineImage : Tm
  internalCrossReference : Tm
  invalidFootnote : Tm
  italicText : Tm
  labeledList : Tm
  labeledListElement : Tm
  labeledListHorizontal : Tm
  labeledListHorizontalElement : Tm
  lineBreak : Tm
  link : Tm
  listingBlock : Tm
  literalBlock : Tm
  manpageHeader : Tm
  manpageNameParagraph : Tm
  markdownQuoteBlock : Tm
  markedText : Tm
  monospaceText : Tm
  openBlock : Tm
  orderedList : Tm
  orderedListElement : Tm
  passthroughBlock : Tm
  paragraph : Tm
  preamble : Tm
  qAndAList : Tm
  qAndAListElement : Tm
  quoteBlock : Tm
  quoteParagraph : Tm
  sectionContent : Tm
  sectionTitle : Tm
  sidebarBlock : Tm
  sourceBlock : Tm
  subscriptText : Tm
  superscriptText : Tm
  table : Tm
  tableBody : Tm
  tableCell : Tm
  tableCellBlock : Tm
  tableHeader : Tm
  tableHeaderCell : Tm
  tableFooter : Tm
  tableFooterCell : Tm
  tableRow : Tm
  thematicBreak : Tm
  tocRoot : Tm
  tocEntry : Tm
  tocSection : Tm
  unorderedList : Tm
  unorderedListElement : Tm
  verseBlock : Tm
  verseParagraph : Tm

/-- html5/templates.go:13-89 -/
def html5 : Templates where
  admonitionBlock := Html5.admonitionBlockTmpl
  admonitionParagraph := Html5.admonitionParagraphTmpl
  article := Html5.articleTmpl
  articleHeader := Html5.articleHeaderTmpl
  blockImage := Html5.blockImageTmpl
  boldText := Html5.boldTextTmpl
  calloutList := Html5.calloutListTmpl
  calloutListElement := Html5.calloutListElementTmpl
  calloutRef := Html5.calloutRefTmpl
  documentDetails := Html5.documentDetailsTmpl
  documentAuthorDetails := Html5.documentAuthorDetailsTmpl
  embeddedParagraph := Html5.embeddedParagraphTmpl
  externalCrossReference := Html5.externalCrossReferenceTmpl
  exampleBlock := Html5.exampleBlockTmpl
  fencedBlock := Html5.fencedBlockTmpl
  footnote := Html5.footnoteTmpl
  footnoteElement := Html5.footnoteElementTmpl
  footnoteRef := Html5.footnoteRefTmpl
  footnotes := Html5.footnotesTmpl
  iconFont := Html5.iconFontTmpl
  iconImage := Html5.iconImageTmpl
  iconText := Html5.iconTextTmpl
  inlineButton := Html5.inlineButtonTmpl
  inlineIcon := Html5.inlineIconTmpl
  inlineImage := Html5.inlineImageTmpl
  internalCrossReference := Html5.internalCrossReferenceTmpl
  invalidFootnote := Html5.invalidFootnoteTmpl
  italicText := Html5.italicTextTmpl
  labeledList := Html5.labeledListTmpl
  labeledListElement := Html5.labeledListElementTmpl
  labeledListHorizontal := Html5.labeledListHorizontalTmpl
  labeledListHorizontalElement := Html5.labeledListHorizontalElementTmpl
  lineBreak := Html5.lineBreakTmpl
  link := Html5.linkTmpl
  listingBlock := Html5.listingBlockTmpl
  literalBlock := Html5.literalBlockTmpl
  manpageHeader := Html5.manpageHeaderTmpl
  manpageNameParagraph := Html5.manpageNameParagraphTmpl
  markdownQuoteBlock := Html5.markdownQuoteBlockTmpl
  markedText := Html5.markedTextTmpl
  monospaceText := Html5.monospaceTextTmpl
  openBlock := Html5.openBlockTmpl
  orderedList := Html5.orderedListTmpl
  orderedListElement := Html5.orderedListElementTmpl
  passthroughBlock := Html5.passthroughBlock
  paragraph := Html5.paragraphTmpl
  preamble := Html5.preambleTmpl
  qAndAList := Html5.qAndAListTmpl
  qAndAListElement := Html5.qAndAListElementTmpl
  quoteBlock := Html5.quoteBlockTmpl
  quoteParagraph := Html5.quoteParagraphTmpl
  sectionContent := Html5.sectionContentTmpl
  sectionTitle := Html5.sectionTitleTmpl
  sidebarBlock := Html5.sidebarBlockTmpl
  sourceBlock := Html5.sourceBlockTmpl
  subscriptText := Html5.subscriptTextTmpl
  superscriptText := Html5.superscriptTextTmpl
  table := Html5.tableTmpl
  tableBody := Html5.tableBodyTmpl
  tableCell := Html5.tableCellTmpl
  tableCellBlock := Html5.tableCellBlockTmpl
  tableHeader := Html5.tableHeaderTmpl
  tableHeaderCell := Html5.tableHeaderCellTmpl
  tableFooter := Html5.tableFooterTmpl
  tableFooterCell := Html5.tableFooterCellTmpl
  tableRow := Html5.tableRowTmpl
  thematicBreak := Html5.thematicBreakTmpl
  tocRoot := Html5.tocRootTmpl
  tocEntry := Html5.tocEntryTmpl
  tocSection := Html5.tocSectionTmpl
  unorderedList := Html5.unorderedListTmpl
  unorderedListElement := Html5.unorderedListElementTmpl
  verseBlock := Html5.verseBlockTmpl
  verseParagraph := Html5.verseParagraphTmpl

/-- xhtml5/xhtml5.go:13-30 -/
def xhtml5 : Templates := { html5 with
  article := Xhtml5.articleTmpl,
  blockImage := Xhtml5.blockImageTmpl,
  lineBreak := Xhtml5.lineBreakTmpl,
  documentAuthorDetails := Xhtml5.documentAuthorDetailsTmpl,
  documentDetails := Xhtml5.documentDetailsTmpl,
  footnotes := Xhtml5.footnotesTmpl,
  iconImage := Xhtml5.iconImageTmpl,
  inlineImage := Xhtml5.inlineImageTmpl,
  labeledListHorizontalElement := Xhtml5.labeledListHorizontalItemTmpl,
  table := Xhtml5.tableTmpl,
  thematicBreak := Xhtml5.thematicBreakTmpl,
  quoteBlock := Xhtml5.quoteBlockTmpl,
  quoteParagraph := Xhtml5.quoteParagraphTmpl,
  verseBlock := Xhtml5.verseBlockTmpl,
  verseParagraph := Xhtml5.verseParagraphTmpl }

end Tmpl
end Verif
