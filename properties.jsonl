{"id": "C01", "title": "Conditional inclusion keeps exactly the enabled lines", "statement": "When a document is preprocessed, a text line is part of the result if and only if every `ifdef`/`ifndef`/`ifeval` block that is open at that line was true at the point where it was opened; a surplus `endif` changes nothing.", "quantifier": "all source texts, all nestings of conditionals, all initial attribute sets, all expression outcomes", "why_tests_cant": "nesting depth and interleaving with attribute changes are unbounded; tests sample a few shapes", "anchors": ["pkg/parser/document_preprocessing.go:preprocess", "pkg/parser/document_preprocessing.go:conditions.push", "pkg/parser/document_preprocessing.go:conditions.pop", "pkg/parser/document_preprocessing.go:conditions.eval", "pkg/parser/document_preprocessing.go:builder"]}
{"id": "C02", "title": "Preprocessing is the identity on directive-free text", "statement": "If no line of the source is a directive, the preprocessed text is the source with its line terminators normalised to a single LF between lines and no trailing one: no line is lost, duplicated, altered or reordered.", "quantifier": "all directive-free source texts, including arbitrarily long lines", "why_tests_cant": "holds over all lengths and contents; the failing boundary (a 64KiB line) is not in any test", "anchors": ["pkg/parser/document_preprocessing.go:preprocess", "pkg/parser/document_preprocessing.go:builder.doInsertLF"]}
{"id": "C03", "title": "`lines=` includes exactly the selected line numbers", "statement": "Including a file with `lines=R` yields, in file order, exactly the lines that carry no tag macro and whose 1-based number lies in one of the ranges of R (an end of -1 meaning end of file); the order in which ranges are written is irrelevant.", "quantifier": "all files, all lists of line ranges in any order, overlapping or not", "why_tests_cant": "the range list and the file are unbounded; the early exit in the matcher is only right because of sorting", "anchors": ["pkg/parser/document_preprocessing.go:readWithinLines", "pkg/types/types.go:LineRanges.Match", "pkg/types/types.go:NewLineRanges"]}
{"id": "C04", "title": "`tags=` includes exactly the selected tagged regions", "statement": "Including a file with `tags=T` yields exactly the non-macro lines for which the last selector of T that applies is positive; a plain selector applies to a line iff the latest `tag::`/`end::` region of that name covers it; a named tag absent from the file is reported as an error, and the result does not depend on map iteration order.", "quantifier": "all files with any placement of tag/end macros, all selector lists, all iteration orders of the region map", "why_tests_cant": "the number of regions and re-openings is unbounded and Go's map iteration order is random", "anchors": ["pkg/parser/document_preprocessing.go:readWithinTags", "pkg/types/types.go:TagRanges.Match"]}
{"id": "C05", "title": "Level offsets shift included sections consistently", "statement": "With relative offsets o1..on in force, every included section of level l is emitted at level l+o1+...+on; with an absolute offset a, the first included section is emitted at level a and every later one keeps its distance to the first. The heading text is otherwise unchanged.", "quantifier": "all nestings of include directives, all offset values, all sequences of section levels", "why_tests_cant": "the shared mutable offset makes the effect depend on the whole history of sections seen before", "anchors": ["pkg/parser/document_preprocessing.go:levelOffsets.apply", "pkg/parser/document_preprocessing.go:levelOffset.apply", "pkg/parser/document_preprocessing.go:contentOf", "pkg/types/types.go:RawSection.OffsetLevel", "pkg/types/types.go:RawSection.Stringify"]}
{"id": "C06", "title": "Attributes given through the API cannot be overridden by the document while parsing", "statement": "Reading an attribute while parsing returns the API-supplied value if there is one, otherwise the value of the last declaration not followed by a reset; this holds after any sequence of declarations and resets.", "quantifier": "all initial attribute sets and all sequences of set/unset operations", "why_tests_cant": "claims about all operation histories", "anchors": ["pkg/parser/context.go:contextAttributes", "pkg/configuration/configuration.go"]}
{"id": "C07", "title": "File inclusion terminates exactly when the include graph is well-founded", "statement": "Preprocessing terminates for every document whose transitive includes do not contain a cycle; a document that includes itself is never completed (no depth guard exists).", "quantifier": "all file systems, all include graphs", "why_tests_cant": "non-termination cannot be observed by a test, and graph shapes are unbounded", "anchors": ["pkg/parser/document_preprocessing.go:preprocess", "pkg/parser/document_preprocessing.go:includeFile"]}
{"id": "C08", "title": "Included files are isolated from the including file", "statement": "Attribute declarations, level offsets, unterminated conditionals and unclosed blocks inside an included file do not change how the remaining lines of the including file are preprocessed.", "quantifier": "all including documents, all included files", "why_tests_cant": "quantifies over all pairs of documents", "anchors": ["pkg/parser/document_preprocessing.go:includeFile", "pkg/parser/context.go:ParseContext.Clone"]}
{"id": "C09", "title": "The process working directory is restored after an inclusion", "statement": "After any inclusion, successful or not, the working directory is what it was before; two conversions running concurrently do not affect each other's file resolution.", "quantifier": "all include directives and outcomes; all interleavings of two conversions", "why_tests_cant": "the second half ranges over all schedules", "anchors": ["pkg/parser/document_preprocessing.go:open", "pkg/parser/document_preprocessing.go:contentOf"]}
{"id": "C10", "title": "The concurrent pipeline computes the sequential composition of its stages", "statement": "For every schedule of the pipeline goroutines over their bounded channels, the fragments reaching the aggregation step are those obtained by applying the stages one after the other, in document order, each exactly once; the pipeline never deadlocks and always drains.", "quantifier": "all numbers of fragments, all buffer sizes, all goroutine interleavings", "why_tests_cant": "the set of interleavings is exponential; tests run a handful of schedules", "anchors": ["pkg/parser/document_processing.go:ParseDocument", "pkg/parser/document_processing_parse_fragments.go", "pkg/parser/document_processing_filter_elements.go", "pkg/parser/document_processing_arrange_lists.go", "pkg/parser/document_processing_aggregate.go"]}
{"id": "C11", "title": "A fragment in error does not affect the others", "statement": "A fragment whose processing failed is dropped as a whole and every other fragment is processed and aggregated exactly as if the failed one had not been there.", "quantifier": "all fragment sequences, all positions and numbers of failures", "why_tests_cant": "quantifies over all failure positions", "anchors": ["pkg/parser/document_processing_aggregate.go:aggregate", "pkg/parser/document_processing_arrange_lists.go:ArrangeLists"]}
{"id": "C12", "title": "Aggregation neither loses, duplicates nor reorders content", "statement": "Reading the resulting document tree in document order yields exactly the block elements of the fragments in source order.", "quantifier": "all sequences of blocks and sections of any levels", "why_tests_cant": "trees of any depth and width", "anchors": ["pkg/parser/document_processing_aggregate.go:aggregator.append", "pkg/parser/document_processing_aggregate.go:aggregator.appendSection"]}
{"id": "C13", "title": "Sections nest by level", "statement": "In the aggregated document the parent of a section is the nearest preceding section that is still open and has a strictly smaller level; hence a child section's level is always strictly greater than its parent's.", "quantifier": "all sequences of section levels", "why_tests_cant": "arbitrary level sequences including gaps and jumps", "anchors": ["pkg/parser/document_processing_aggregate.go:aggregator.indexOfParent"]}
{"id": "C14", "title": "Section identifiers are unique and always found", "statement": "Resolving the identifiers of all sections of a document terminates, and any two sections that got a generated identifier have different identifiers; every generated identifier refers to the section it was generated for.", "quantifier": "all documents, all multisets of titles, any id prefix and separator", "why_tests_cant": "collision patterns (title equal to an already suffixed id) are unbounded", "anchors": ["pkg/types/types.go:Section.ResolveID", "pkg/types/types.go:resolveID"]}
{"id": "C15", "title": "Generated identifiers only contain safe characters", "statement": "An identifier generated from a title starts with the prefix and otherwise consists only of letters, digits and the separator; for a plain text title it is the words of the title (case preserved) joined by the separator, with no doubled or trailing separator.", "quantifier": "all titles, prefixes and separators", "why_tests_cant": "all Unicode strings", "anchors": ["pkg/types/non_alphanumerics_replacement.go:ReplaceNonAlphanumerics"]}
{"id": "C16", "title": "The table of contents lists exactly the sections up to the chosen depth", "statement": "The entries of the table of contents, in order, are exactly the sections of the document with level between 1 and toclevels, each once; for documents without level gaps the nesting of the entries is the nesting of the sections.", "quantifier": "all documents, all depths", "why_tests_cant": "all trees", "anchors": ["pkg/types/types.go:TableOfContents.Add", "pkg/types/types.go:TocSection.Add", "pkg/renderer/sgml/table_of_contents.go"]}
{"id": "C17", "title": "Preamble insertion preserves the document", "statement": "Introducing the preamble keeps header, content and order: flattening the preamble gives back the original elements; a preamble is only introduced when there is a header, content before the first section, and at least one section.", "quantifier": "all documents", "why_tests_cant": "all element sequences", "anchors": ["pkg/parser/document_processing_aggregate.go:insertPreamble", "pkg/types/types.go:Preamble"]}
{"id": "C18", "title": "Footnotes are numbered 1..n in order and references resolve", "statement": "The footnotes of a document get the numbers 1,2,...,n in order of occurrence without gap; a reference-only occurrence resolves to the first footnote defined before with that reference, or to the invalid marker if there is none; no footnote content is lost.", "quantifier": "all documents, all sequences of footnotes with or without references", "why_tests_cant": "all histories of footnote definitions and references", "anchors": ["pkg/types/types.go:Footnotes.Reference", "pkg/parser/document_processing_collect_footnotes.go"]}
{"id": "C19", "title": "List arrangement keeps every element, in order, in homogeneous lists", "statement": "Arranging the list elements of a fragment either fails or yields a list tree whose elements, read in document order, are the input elements with their attached blocks; every list contains only elements of its own kind and style.", "quantifier": "all sequences of ordered/unordered/labeled/callout elements and continuations", "why_tests_cant": "arbitrary nesting histories", "anchors": ["pkg/parser/document_processing_arrange_lists.go:listStack", "pkg/types/types.go:List.AddElement"]}
{"id": "C20", "title": "Filtering removes comments and blank lines and nothing else", "statement": "After filtering, no single-line comment, comment block or (outside of verbatim blocks) blank line remains, all other elements remain in order with their content, and filtering twice is filtering once.", "quantifier": "all element trees", "why_tests_cant": "all trees", "anchors": ["pkg/parser/document_processing_filter_elements.go:doFilterOut"]}
{"id": "C21", "title": "Merging inline elements preserves the text", "statement": "Merging a sequence of inline elements leaves no nil and no two adjacent string elements, and changes neither the characters nor the order of the content.", "quantifier": "all nested sequences of inline elements", "why_tests_cant": "all nested lists", "anchors": ["pkg/types/types_utils.go:merge", "pkg/types/types_utils.go:Reduce"]}
{"id": "C22", "title": "The `subs` attribute denotes the documented set of substitutions", "statement": "Evaluating `subs` gives the same result as the documented reading: a list without modifiers replaces the default, `x+` prepends, `+x` appends, `-x` removes every occurrence, groups expand; any unknown name is an error.", "quantifier": "all blocks and all subs values", "why_tests_cant": "all sequences of modifiers", "anchors": ["pkg/parser/document_substitutions.go"]}
{"id": "C23", "title": "Attribute references are replaced by the current value, unknown ones stay literal", "statement": "Substituting attribute references replaces exactly the references to attributes that are set, by their value at that point of the document; references to unset attributes are rendered as `{name}`, all other elements are unchanged.", "quantifier": "all element trees and attribute histories", "why_tests_cant": "all histories", "anchors": ["pkg/parser/document_processing_apply_substitutions.go:applySubstitutionsOnElement", "pkg/parser/document_processing_apply_substitutions.go:valueForAttributeRef"]}
{"id": "C24", "title": "Counters count", "statement": "The k-th occurrence of `{counter:n}` evaluates to start+k-1; occurrences of other counters do not affect it; a hidden counter advances but renders as nothing.", "quantifier": "all sequences of counter references", "why_tests_cant": "all histories", "anchors": ["pkg/parser/document_processing_apply_substitutions.go:valueForCounter"]}
{"id": "C25", "title": "Placeholders for already processed elements are restored faithfully", "statement": "Serialising a mixed sequence of text and processed elements and restoring it gives back the same sequence, for every text that does not itself contain the placeholder delimiter.", "quantifier": "all sequences of text and elements", "why_tests_cant": "all texts and all numbers of elements", "anchors": ["pkg/parser/document_processing_apply_substitutions.go:serialize", "pkg/parser/document_processing_apply_substitutions.go:placeholders", "pkg/parser/parser.peg:ElementPlaceHolder"]}
{"id": "C26", "title": "Table cells are distributed over rows without loss", "statement": "The cells of a table read row by row are the cells of the source in order; every body row has exactly as many cells as there are columns, except for cells that do not fill a complete row.", "quantifier": "all tables, all numbers of columns and cells", "why_tests_cant": "all sizes", "anchors": ["pkg/types/types.go:Table", "pkg/renderer/sgml/table.go"]}
{"id": "C27", "title": "Escaped text contains no markup-significant character", "statement": "Text passed through the renderer's escaping contains no raw `<`, `>`, `\"` or `'`; text without special characters is unchanged; escaping keeps the meaning (decoding the entities gives the original text back).", "quantifier": "all strings", "why_tests_cant": "all strings", "anchors": ["pkg/renderer/sgml/html_escape.go", "pkg/renderer/sgml/string.go"]}
{"id": "C28", "title": "ASCII entity conversion yields ASCII and is reversible", "statement": "After entity conversion every character is ASCII, ASCII text is unchanged and decoding the numeric entities gives the original back.", "quantifier": "all strings", "why_tests_cant": "all Unicode strings", "anchors": ["pkg/renderer/sgml/string.go:asciiEntify"]}
{"id": "C29", "title": "Section numbers are hierarchical and consecutive", "statement": "With section numbering enabled, the k-th numbered subsection of a section numbered p is numbered p.k; the k-th top level section is numbered k; sections outside of the numbered regions get no number.", "quantifier": "all document trees and all placements of `:sectnums:`", "why_tests_cant": "all trees", "anchors": ["pkg/types/types.go:Document.SectionNumbers", "pkg/types/types.go:SectionNumbers"]}
{"id": "C30", "title": "Captioned blocks are numbered consecutively per kind", "statement": "The captioned images (tables, examples) of a document are numbered 1,2,3,... in rendering order, independently of the other kinds; blocks without title consume no number.", "quantifier": "all documents", "why_tests_cant": "all histories", "anchors": ["pkg/renderer/sgml/context.go", "pkg/renderer/sgml/image.go", "pkg/renderer/sgml/table.go", "pkg/renderer/sgml/delimited_block_example.go"]}
{"id": "C31", "title": "Manpage validation reports no problem iff the document has the required structure", "statement": "Validating a manpage document reports no problem if and only if it has a header, then a level-1 section `Name` with exactly one paragraph, then a level-1 section `Synopsis`; validation never crashes; documents of another type are never reported.", "quantifier": "all documents", "why_tests_cant": "all document shapes, including empty ones", "anchors": ["pkg/validator/validator.go"]}
{"id": "C32", "title": "Configuration settings compose predictably", "statement": "A configuration is the result of applying the settings in order: for each option the last setting wins and options do not interfere; the backend and the `basebackend` attributes agree.", "quantifier": "all sequences of settings", "why_tests_cant": "all sequences", "anchors": ["pkg/configuration/configuration.go"]}
{"id": "C33", "title": "Attribute merging keeps roles and options cumulative and other keys last-wins", "statement": "Building the attributes of an element from a sequence of attribute entries accumulates roles and options in order and keeps the last value of every other key, independently of map iteration order.", "quantifier": "all sequences of attributes", "why_tests_cant": "all sequences, all iteration orders", "anchors": ["pkg/types/attributes.go"]}
{"id": "C34", "title": "A failed conversion writes nothing", "statement": "If rendering fails, no byte has been written to the output; if it succeeds the output is the complete document.", "quantifier": "all documents and all failure points", "why_tests_cant": "all failure points", "anchors": ["pkg/renderer/sgml/sgml.go:Render", "libasciidoc.go:Convert"]}
{"id": "C35", "title": "`ifeval` compares as documented", "statement": "`ifeval::[a op b]` is true iff both operands resolve to values of the same type related by op; all six operators of the grammar are usable.", "quantifier": "all operands and operators", "why_tests_cant": "all values", "anchors": ["pkg/types/types.go:IfevalCondition", "pkg/parser/parser.peg:IfevalExpressionOperand"]}
{"id": "C36", "title": "`ifdef` and `ifndef` are complementary tests of attribute presence", "statement": "`ifdef::x[]` is true iff x is set at that point and `ifndef::x[]` is true iff it is not.", "quantifier": "all attribute histories and names", "why_tests_cant": "all histories", "anchors": ["pkg/types/types.go:IfdefCondition", "pkg/types/types.go:IfndefCondition"]}
{"id": "C37", "title": "Delimited blocks protect the headings they contain in included files", "statement": "While preprocessing an included file, a line that looks like a heading is shifted by the level offset iff it is not inside a delimited block; after all blocks are closed, headings are recognised again.", "quantifier": "all sequences of block delimiters and headings", "why_tests_cant": "all nestings", "anchors": ["pkg/parser/document_preprocessing.go:blockDelimiterTracker", "pkg/parser/parser.peg:BlockDelimiter", "pkg/parser/parser.peg:RawSection"]}
{"id": "C38", "title": "Cross references by title and by id find the section", "statement": "`<<Some Title>>` refers to the same identifier that the section `Some Title` gets when no other section has claimed it, and the rendered label is the section title unless a label is given.", "quantifier": "all documents, titles and references", "why_tests_cant": "all documents", "anchors": ["pkg/types/types.go:InternalCrossReference.ResolveID", "pkg/parser/document_processing_aggregate.go:resolveCrossReferences", "pkg/renderer/sgml/cross_reference.go"]}
{"id": "C39", "title": "Range selectors are parsed as written", "statement": "Printing a list of line ranges (tag selectors) in the documented syntax and parsing it gives the same list back; any other text is rejected as a whole.", "quantifier": "all lists of ranges / selectors", "why_tests_cant": "all lists, all integers", "anchors": ["pkg/parser/parser.peg:LineRanges", "pkg/parser/parser.peg:TagRanges"]}
{"id": "C40", "title": "Converting twice with one configuration gives the same result", "statement": "Convert does not modify the caller's configuration, and API attributes keep their precedence while rendering.", "quantifier": "all documents, all configurations", "why_tests_cant": "depends on aliasing between the configuration and rendering state for all histories", "anchors": ["libasciidoc.go:Convert", "pkg/renderer/sgml/context.go:newContext"]}
{"id": "C41", "title": "Splitting a source block in lines preserves its content", "statement": "When a source block is highlighted line by line, the lines joined by newlines are the content of the block, character by character and element by element, up to one newline at the very end; no line contains a newline.", "quantifier": "all sequences of text and callouts", "why_tests_cant": "all contents", "anchors": ["pkg/types/types_utils.go:SplitElementsPerLine", "pkg/renderer/sgml/delimited_block_source.go"]}
{"id": "C42", "title": "Positional attributes get their names", "statement": "For every kind of element, the n-th unnamed attribute becomes the attribute the documentation names for that position, unless that name was given explicitly or the position is empty; all other attributes are kept, whatever the iteration order of the mapping.", "quantifier": "all attribute lists, all iteration orders of the mapping tables", "why_tests_cant": "map iteration order is random; all attribute lists", "anchors": ["pkg/types/attributes.go:toAttributesWithMapping", "pkg/types/types.go:mapAttributes"]}
{"id": "C43", "title": "Attributes of the command line", "statement": "Each `-a name=value` (or `-a name`) sets that attribute to that value (or to the empty value), `-a name!` unsets it, and for each name the last one wins.", "quantifier": "all lists of `-a` options", "why_tests_cant": "all lists and texts", "anchors": ["cmd/libasciidoc/root_cmd.go:parseAttributes"]}
{"id": "C44", "title": "The page around a standalone document", "statement": "In the page of a standalone document the content appears unchanged and once, preceded by the header and followed by the footer iff they are enabled; all stylesheets are linked in order; title, authors and description appear in the head as text.", "quantifier": "all pages, both formats", "why_tests_cant": "all contents and metadata", "anchors": ["pkg/renderer/sgml/html5/article.go", "pkg/renderer/sgml/xhtml5/article.go", "pkg/renderer/sgml/sgml.go:Render"]}
{"id": "C45", "title": "Parsing always ends", "statement": "Every entry point of the parser ends on every text, whatever the attributes, user macros, substitutions and context, and what it leaves is a suffix of the text.", "quantifier": "all texts, all rules, all states, all meanings of the code embedded in the grammar", "why_tests_cant": "a left recursion or an empty iteration hangs only on particular texts; there are infinitely many", "anchors": ["pkg/parser/parser.peg", "pkg/parser/parser.go:parseExpr"]}
{"id": "C46", "title": "Splitting a document into fragments ends and is gapless", "statement": "The loop over a document ends; the fragments are consecutive, not empty, within the document, end at ends of lines, and cover the whole document unless an error is reported or a fragment has no element.", "quantifier": "all documents, all states", "why_tests_cant": "all documents", "anchors": ["pkg/parser/document_processing_parse_fragments.go:ParseFragments", "pkg/parser/parser_ext.go:next"]}
{"id": "C47", "title": "Every text is accepted as inline content", "statement": "Parsing inline content (paragraph lines, cells, titles, attribute values) never fails on a text that is not empty, and takes all of it.", "quantifier": "all texts, all substitutions, all states", "why_tests_cant": "all texts; depends on how 100 rules fall back on each other", "anchors": ["pkg/parser/parser.peg:NormalGroup", "pkg/parser/parser.peg:AttributeStructuredValue", "pkg/parser/parser_ext.go:trackElement"]}
{"id": "C48", "title": "Every document of ordinary lines is accepted", "statement": "AsciiDoc has no syntax errors: a document whose lines are blank or have a visible character (after the prefix of an admonition too) is parsed to its end, whatever its markup.", "quantifier": "all documents of such lines, all states", "why_tests_cant": "all documents", "anchors": ["pkg/parser/parser.peg:DocumentFragment", "pkg/parser/parser.peg:Paragraph", "pkg/parser/document_processing_parse_fragments.go"]}
{"id": "C49", "title": "Delimited blocks extend to the line that closes them", "statement": "A line that opens a block (listing, literal, example, sidebar, quote, passthrough, fenced code, open) starts an element that contains exactly the following lines up to the first one that closes it (the same delimiter, of the same length), or the end of the document; the content of these lines has no influence, and parsing goes on at the line after.", "quantifier": "all documents, all contents, all kinds of blocks and lengths of delimiters, all states", "why_tests_cant": "the content is arbitrary text, in which any other construct may appear", "anchors": ["pkg/parser/parser.peg:DelimitedBlock", "pkg/parser/parser.peg:DocumentFragment", "pkg/parser/parser_ext.go:matchBlockDelimiterLength"]}
{"id": "C50", "title": "The lines that preprocessing acts upon", "statement": "A line is a condition, the end of one, a reset of an attribute, a delimiter or a title exactly if it has the documented shape (whatever follows it or precedes it), declarations and inclusions have at least their documented start, and every other line goes through unchanged. Consequently a document without directives is not changed by preprocessing, and the lines between `ifdef::name[]` and `endif::[]` are kept exactly if the caller or the lines before set the attribute.", "quantifier": "all lines, all documents, all states", "why_tests_cant": "all texts of lines; the shapes are given by 40 rules that fall back on each other", "anchors": ["pkg/parser/parser.peg:DocumentRawLine", "pkg/parser/parser.peg:AttributeDeclaration", "pkg/parser/document_preprocessing.go:preprocess"]}
{"id": "C51", "title": "The output is well-formed", "statement": "Converting a document gives HTML (or XHTML) in which every element that is opened is closed, in order, every attribute value is quoted, and text has no raw `<` or `>` — for every kind of element, in every nesting, with and without the page around it — provided that passthrough text is balanced, that the values written in attributes have no quotes or tags, and apart from the listed defects of the templates.", "quantifier": "all documents (all trees of elements), all configurations, HTML and XHTML, all depths", "why_tests_cant": "there are over a hundred templates, which are combined in infinitely many ways; a template that is right alone may be wrong in a context", "anchors": ["pkg/renderer/sgml/sgml_renderer.go:Render", "pkg/renderer/sgml/html5", "pkg/renderer/sgml/xhtml5", "pkg/renderer/sgml/elements.go:renderElement"]}
{"id": "C52", "title": "No text is lost, and it stays in order", "statement": "Every word and every symbol of a document — of its paragraphs, titles, lists, tables, blocks, links, images and footnotes — occurs in the output, each after the one before it, none overlapping, with only the replacement of characters by entities; the footnotes follow the body. Exceptions: the header of a table without rows, titles of passthrough blocks and of paragraphs embedded in lists, the title of a quote with an empty author, and the first section of a manual page after its first paragraph.", "quantifier": "all documents (all trees of elements), all configurations, HTML and XHTML, all depths", "why_tests_cant": "whether a template writes what it is given depends on the other fields and on the context; tests compare whole outputs of a few documents", "anchors": ["pkg/renderer/sgml/sgml_renderer.go:Render", "pkg/renderer/sgml/html5", "pkg/renderer/sgml/xhtml5", "pkg/renderer/sgml/elements.go:renderElement"]}
{"id": "C53", "title": "Rendering ends", "statement": "Converting the elements of a document to HTML comes to an end, whatever is nested in what, provided that cross references are not circular: the title which a reference without label shows, and the title of the table of contents, do not refer back to themselves through other titles. There is then exactly one result. A section whose title refers to itself exhausts the stack.", "quantifier": "all documents (all trees of elements, all tables of references), all configurations, all library functions", "why_tests_cant": "termination for all documents; a test that does not end tells nothing about the others", "anchors": ["pkg/renderer/sgml/sgml.go:Render", "pkg/renderer/sgml/elements.go:renderElement", "pkg/renderer/sgml/cross_reference.go:renderInternalCrossReference", "pkg/renderer/sgml/table_of_contents.go:renderTableOfContentsTitle"]}
{"id": "C54", "title": "Rendering does not panic", "statement": "Converting the elements of a document to HTML does not panic, provided that paragraphs with style verse have no special characters, ordered lists have items or a style, no row of a table has more cells than there are columns, an e-mail address in the header comes after an author, and a document of type manpage begins with a section that begins with a paragraph.", "quantifier": "all documents (all trees of elements), all configurations, all library functions, all depths", "why_tests_cant": "absence of panics for all documents", "anchors": ["pkg/renderer/sgml/sgml.go:Render", "pkg/renderer/sgml/elements.go:renderElement", "pkg/renderer/sgml/render_plain_text.go:RenderPlainText", "pkg/types/types.go:Authors"]}
{"id": "C55", "title": "Well-shaped documents are converted", "statement": "A document satisfying the conditions of the two properties before is converted without error if its elements are of the kinds that the renderer knows, with styles and attributes that it knows (icons, toc, list styles), and if what is to be written as plain text can be. No template fails for lack of a field. In particular no document of such elements is refused because of the way they are nested.", "quantifier": "all documents (all trees of elements), all configurations, HTML and XHTML", "why_tests_cant": "success for all documents; the templates are only checked when they are executed", "anchors": ["pkg/renderer/sgml/sgml.go:Render", "pkg/renderer/sgml/sgml_renderer.go:execute", "pkg/renderer/sgml/html5", "pkg/renderer/sgml/xhtml5"]}
{"id": "C56", "title": "The result does not depend on the order of Go's maps", "statement": "Go iterates over maps in a random order. The document that results from substitutions — and whether it fails, and how — is the same for every order in which the attributes of blocks, sections, tables, lists and of the configuration are visited. (False for the attributes of inline elements: the text of a link switches macros off for the attributes visited after it.)", "quantifier": "all documents, all attributes, all orders at every map, all parsers", "why_tests_cant": "the order is chosen at random by the runtime at each loop; a test sees a few of exponentially many", "anchors": ["pkg/parser/document_processing_apply_substitutions.go:reparseAttributes", "pkg/parser/document_processing_apply_substitutions.go:reparseInlineAttributes", "pkg/parser/document_processing_apply_substitutions.go:replaceAttributeRefsInAttributeValues"]}
{"id": "C57", "title": "Substitutions do not crash the program", "statement": "Replacing references, counters and inline markup in a document does not panic, whatever the attributes given through the API, provided that every section title contains something other than references, that an e-mail address in the header comes after an author, and that the columns of a table are at least one, with enough cells for header and footer. (The stage runs in a goroutine of its own, so a panic cannot be recovered by the caller.)", "quantifier": "all documents, all attributes, all parsers", "why_tests_cant": "absence of panics for all documents and configurations", "anchors": ["pkg/parser/document_processing_apply_substitutions.go:applySubstitutionsOnElement", "pkg/types/types.go:SetTitle", "pkg/types/types.go:Authors", "pkg/types/types.go:SetColumnDefinitions"]}
{"id": "C58", "title": "Text without markup is left as it is", "statement": "The inline content of a paragraph, a term, a title, a cell, a verbatim block or a passthrough block in which nothing occurs that one of the substitutions enabled there asks for is the text itself: not a character is lost, added or moved, and nothing is taken for markup. If special characters are to be replaced they are set apart, one by one. In particular marks of quotes, macros, attributes and replacements in listings and passthrough blocks stay as they are. Two things are interpreted whatever the substitutions: an escaped apostrophe loses its backslash, and U+FFFD around digits is taken for a place of the parser's own.", "quantifier": "all texts, all sets of enabled substitutions, all meanings of the rest of the code in the grammar", "why_tests_cant": "there are as many texts without markup as texts, and as many ways for one of two hundred rules to match by accident; tests have a few sentences", "anchors": ["pkg/parser/parser.peg:NormalGroup", "pkg/parser/parser.peg:AttributeStructuredValue", "pkg/parser/parser_ext.go:isSubstitutionEnabled", "pkg/types/types.go:NewInlineElements", "pkg/types/types_utils.go:merge"]}
{"id": "C59", "title": "Plain prose becomes paragraphs", "statement": "A document of lines of prose and blank lines is read as its paragraphs: runs of lines between blank lines become one paragraph each, in order, with the same lines, less the spaces at their ends; nothing is taken for a list, a title, a block or an attribute, no line is lost, and there are no errors. A paragraph without inline markup keeps exactly this text, special characters set apart. Lines of prose: the first of a paragraph begins with a letter or a number and is not an item, a label, a block macro or an admonition; the others do not begin with a character that opens a block, an attribute list or a title.", "quantifier": "all documents of such lines, of any length, all meanings of the rest of the code in the grammar", "why_tests_cant": "there are infinitely many documents of plain prose, and dozens of rules that come before the one for paragraphs, each of which may match by accident", "anchors": ["pkg/parser/parser.peg:DocumentFragment", "pkg/parser/parser.peg:Paragraph", "pkg/parser/document_processing_parse_fragments.go:ParseDocumentFragments", "pkg/types/types.go:NewParagraph", "pkg/types/types.go:NewRawLine"]}
{"id": "C60", "title": "Plain prose goes through to the page", "statement": "A document of plain prose (C59) without inline markup, given to Convert, yields exactly the page one expects: for each paragraph, in order, one paragraph element with the text of the lines, as written except for spaces at their ends, with <, > and & written as entities; blank lines leave nothing, and nothing else is put on the page. This holds through all stages: preprocessing, parsing, refinement, substitutions, footnotes, lists, filtering, aggregation and rendering, for HTML and XHTML.", "quantifier": "all documents of plain prose, of any length, all configurations for articles without header and footer", "why_tests_cant": "an end-to-end guarantee for infinitely many documents through eight stages, each of which could lose, duplicate or reorder content", "anchors": ["libasciidoc.go:Convert", "pkg/parser/document_processing.go:ParseDocument", "pkg/parser/document_preprocessing.go:Preprocess", "pkg/renderer/sgml/sgml.go:Render", "pkg/renderer/sgml/paragraph.go:renderParagraph"]}
{"id": "C61", "title": "Only the content of blocks and cells is parsed again", "statement": "Refinement looks into the elements of lists and what is attached to them, tables, and example, quote, sidebar and open blocks, at any depth, and into nothing else: paragraphs, sections and the content of verbatim blocks are left as they are. The content of a block is parsed as a document is and keeps its order, kind and attributes; the content of each cell of a table in a text format becomes one paragraph. The refinement ends, with one result; what cannot be parsed makes an error of its own fragment only. (Finding: blocks in cells of the AsciiDoc format are not refined.)", "quantifier": "all elements, at any depth, all parsers; termination for all parsers whose blocks have less text than the text they are found in", "why_tests_cant": "documents nest blocks to any depth; termination cannot be observed", "anchors": ["pkg/parser/document_processing_refine_fragments.go:refineElement", "pkg/parser/document_processing_refine_fragments.go:reparseDelimitedBlock", "pkg/parser/document_processing_refine_fragments.go:reparseTableCell"]}
{"id": "C62", "title": "Documents with delimited blocks go through to the page", "statement": "A document of paragraphs of prose, blank lines and listing, literal, fenced, passthrough, example, sidebar, quote and open blocks, nested to any depth, without other markup, given to Convert, yields exactly the page one expects: the paragraphs and blocks in order, each block with the blocks in it, listings, literal, fenced and passthrough blocks with their lines as written, whatever these look like, without the spaces at the ends of lines and without empty lines at both ends; <, > and & are written as entities everywhere but in passthrough blocks. A block ends at the first line that repeats its delimiter, with the same length. Finding: the delimiter of an open block right after a line of a paragraph becomes a line of the paragraph.", "quantifier": "all documents of such blocks, of any length and depth, all configurations for articles without header and footer", "why_tests_cant": "an end-to-end guarantee for infinitely many documents, nested to any depth, through nine stages", "anchors": ["libasciidoc.go:Convert", "pkg/parser/parser.peg:DelimitedBlock", "pkg/parser/parser.peg:DelimitedBlockElements", "pkg/parser/document_processing_refine_fragments.go:reparseDelimitedBlock", "pkg/parser/document_processing_apply_substitutions.go:applySubstitutionsOnWithElements", "pkg/renderer/sgml/delimited_block.go:renderDelimitedBlock"]}
{"id": "C63", "title": "Documents with sections go through to the page", "statement": "A document of section titles of the levels 1 to 5, paragraphs of prose and delimited blocks as in C62, without other markup, given to Convert, yields exactly the page one expects: every section contains, in order, what follows its title up to the next title of the same or a lesser level, whatever levels are skipped; what precedes the first title stands at the top; the title is shown in the heading element of its level, special characters as entities; its identifier is made of the words of the title, joined by underscores, the first of the names x, x_2, x_3 … that no earlier section has. Lines that look like titles in listings are no titles. Nothing else appears on the page.", "quantifier": "all documents of such titles and blocks, any number of sections in any order of levels, all repeated titles, all configurations for articles without header and footer and without table of contents", "why_tests_cant": "an end-to-end guarantee for infinitely many documents; nesting and identifiers depend on everything that precedes", "anchors": ["libasciidoc.go:Convert", "pkg/parser/parser.peg:Section", "pkg/parser/parser.peg:SectionTitle", "pkg/parser/document_processing_aggregate.go:Aggregate", "pkg/types/types.go:ResolveID", "pkg/renderer/sgml/section.go:renderSection"]}
{"id": "C64", "title": "Lists go through to the page", "statement": "A list of items with the marks -, * to *****, . to ....., 1., a., A., i) and I), with lists of other marks in items to any depth, items of several lines and blank lines between items, without other markup, given to Convert, yields exactly the list one expects, alone or in a document with sections and blocks as in C63: every item is shown once, in the order of the text, with its text (spaces at the ends of lines removed, <, > and & as entities) followed by the list in it; items with the mark of the list belong to it, an item with the mark of an outer list continues that list, and an item with another mark opens a list in the item before it; ordered lists are shown with the numbering of their first mark. A list ends before a delimited block, or at blank lines before something that is no item.", "quantifier": "all such lists, of any length, any depth and any marks, all documents with them, all configurations for articles without header and footer and without table of contents", "why_tests_cant": "an end-to-end guarantee for infinitely many lists; the place of an item depends on the marks of all items before it", "anchors": ["libasciidoc.go:Convert", "pkg/parser/parser.peg:ListElements", "pkg/parser/parser.peg:OrderedListElement", "pkg/parser/parser.peg:UnorderedListElement", "pkg/types/types.go:NewListElements", "pkg/parser/document_processing_arrange_lists.go:arrangeListElements", "pkg/renderer/sgml/list.go:renderUnorderedList"]}
{"id": "C65", "title": "Inline markup goes through to the page", "statement": "Paragraphs with inline markup, given to Convert, yield exactly the page one expects: *bold*, _italic_, `monospace` and #highlighted# text, with one mark at each side between words or two anywhere, nested in one another to any depth, become the HTML elements strong, em, code and mark around their content; H~2~O and x^2^ become sub and sup; (C), (R), (TM), ..., arrows, curved quotes, apostrophes in words and -- between words become the characters they stand for; everything else appears as it is written, with <, > and & as entities. A mark only counts where it can open and close (by what is next to it), and a text has only one such reading.", "quantifier": "all documents of paragraphs whose text is a sequence of such pieces, of any length and nested to any depth, all configurations for articles without header and footer", "why_tests_cant": "an end-to-end guarantee for infinitely many texts; whether a mark counts depends on what surrounds it, and the parser backtracks over unbounded text", "anchors": ["libasciidoc.go:Convert", "pkg/parser/parser.peg:NormalGroup", "pkg/parser/parser.peg:QuotedText", "pkg/parser/parser.peg:Symbol", "pkg/parser/parser.peg:Quote", "pkg/parser/parser_ext.go:isSingleQuotedTextAllowed", "pkg/parser/parser_ext.go:trackElement", "pkg/types/types.go:NewQuotedText", "pkg/renderer/sgml/quoted_text.go:renderQuotedText", "pkg/renderer/sgml/symbol.go"]}
{"id": "C66", "title": "The document header goes through to the page", "statement": "A document that begins with a header (= Title, a line of authors, a line with the revision) given to Convert yields exactly the page one expects: the title is the title of the page and is shown at its top; under it every author in order, with the full name (underscores as spaces) and the address as a mailto link, and the number, date and remark of the revision; the names of all authors are in the metadata and the number of the revision in the footer; what comes before the first section becomes the preamble if there are sections; the rest of the page is as without header. Header and footer can be turned off, and without wrapping only the content is produced. The header ends at the first blank line. Findings: a revision number of one character (v1, 2020) is not seen, everything is taken for the date; names of authors are not escaped.", "quantifier": "all documents with such a header, any number of authors, all names, addresses and revisions of the forms of the grammar, any body of sections, blocks and lists as in C63 and C64, both output formats, all configurations without toc and without attributes for authors and revision", "why_tests_cant": "an end-to-end guarantee for infinitely many headers, through nine stages, where authors travel as attributes under computed keys", "anchors": ["libasciidoc.go:Convert", "pkg/parser/parser.peg:DocumentHeader", "pkg/parser/parser.peg:DocumentAuthors", "pkg/parser/parser.peg:DocumentRevision", "pkg/types/types.go:NewDocumentHeader", "pkg/types/types.go:Expand", "pkg/parser/document_processing_aggregate.go:insertPreamble", "pkg/renderer/sgml/document_details.go:renderDocumentDetails", "pkg/renderer/sgml/sgml_renderer.go"]}
{"id": "C67", "title": "Attribute declarations, references and counters go through to the page", "statement": "In a document of paragraphs with declarations (:name: value) and resets (:!name:, :name!:) of attributes between them, given to Convert, every {name} in a paragraph or in the value of a later declaration shows the value given in the configuration if there is one, else the value of the last declaration before it that was not reset since; a reference to an attribute without value, and an escaped reference, remains as it is written; {counter:name} shows 1, 2, 3 and so on, each name counted on its own through the whole document, and {counter2:name} counts without showing; the values are escaped like text, declarations and resets show nothing, and the rest of the text is unchanged.", "quantifier": "all documents of such paragraphs, declarations and resets, in any order and of any length, all values whose text has no markup, all attributes given in the configuration", "why_tests_cant": "an end-to-end guarantee for infinitely many documents: what a reference shows depends on all that precedes it, and on the configuration", "anchors": ["libasciidoc.go:Convert", "pkg/parser/parser.peg:AttributeDeclaration", "pkg/parser/parser.peg:AttributeReference", "pkg/parser/document_processing_apply_substitutions.go:ApplySubstitutions", "pkg/parser/document_processing_apply_substitutions.go:replaceAttributeRefsInElementsAndReparse", "pkg/parser/document_processing_apply_substitutions.go:valueForCounter", "pkg/parser/context.go:get", "pkg/renderer/sgml/elements.go:renderElement"]}
{"id": "C68", "title": "The table of contents goes through to the page", "statement": "A document of sections, paragraphs, lists and delimited blocks as in C63 and C64, given to Convert with the attribute toc, yields the page of C63 with the table of contents before it: under the title Table of Contents (or the value of toc-title) it lists the sections whose level is at most toclevels (two if not given), each exactly once, in the order of the document, with the text of its title and a link to the very identifier its heading has on the page; each entry is below that of the nearest section before it with a smaller level, provided that no level is skipped; without such sections there is no table.", "quantifier": "all documents of C63 of any length in which the listed sections skip no level, all depths, all titles of the table, all configurations for articles without header and footer", "why_tests_cant": "an end-to-end guarantee for infinitely many documents; the place of an entry depends on all sections before it", "anchors": ["libasciidoc.go:Convert", "pkg/types/types.go:Add", "pkg/parser/document_processing_aggregate.go:Aggregate", "pkg/renderer/sgml/table_of_contents.go:prerenderTableOfContents", "pkg/renderer/sgml/table_of_contents.go:renderTableOfContents", "pkg/renderer/sgml/sgml.go:renderDocumentBody"]}
{"id": "C69", "title": "Sections, lists and blocks with inline markup go through to the page", "statement": "A document of sections, lists, delimited blocks and paragraphs, where the paragraphs between them contain inline markup (bold, italic, monospace and marked text at any depth, subscripts and superscripts, and the signs that are replaced), given to Convert, yields: every section with all that follows its title up to the next title whose level is not greater, with its identifier made of the title; the paragraphs with HTML elements in place of the marks and with the characters the signs stand for; lists and blocks as in C62 and C64 - all in the order of the document and nothing else; with the attribute toc, the table of contents of C68 before it.", "quantifier": "all documents of such items in any order and of any length, all texts with markup nested to any depth, all configurations for articles without header and footer, with and without toc", "why_tests_cant": "an end-to-end guarantee for infinitely many documents in which all these constructs are combined", "anchors": ["libasciidoc.go:Convert", "pkg/parser/parser.peg:DocumentFragment", "pkg/parser/parser.peg:QuotedText", "pkg/parser/parser.peg:Section", "pkg/parser/parser.peg:ListElements", "pkg/parser/document_processing_apply_substitutions.go:ApplySubstitutions", "pkg/parser/document_processing_aggregate.go:Aggregate", "pkg/renderer/sgml/section.go:renderSection", "pkg/renderer/sgml/paragraph.go:renderParagraph"]}
{"id": "C70", "title": "References to sections lead there and show their titles", "statement": "In a document of sections, lists, blocks and paragraphs with inline markup, given to Convert, a reference <<id>> in a paragraph becomes a link to the identifier, which shows the title of the section that has this identifier, before or after the reference; <<A title>> with the text of a title of more than one word leads to the section with the identifier made of this title and shows it; <<id,label>> shows the label; a reference to what is not there shows the identifier in brackets. References can stand within bold, italic and other marked text, at any depth.", "quantifier": "all documents as in C69 of any length, any number of references anywhere in the paragraphs, before and after the sections they refer to", "why_tests_cant": "an end-to-end guarantee for infinitely many documents: what a reference shows depends on the whole document, and on the identifiers given to equal titles", "anchors": ["libasciidoc.go:Convert", "pkg/parser/parser.peg:InternalCrossReference", "pkg/types/types.go:NewInternalCrossReference", "pkg/types/types.go:ResolveID", "pkg/parser/document_processing_aggregate.go:resolveCrossReferences", "pkg/renderer/sgml/cross_reference.go:renderInternalCrossReference"]}
{"id": "C71", "title": "Conditions choose lines, nested to any depth, down to the page", "statement": "In a document given to Convert, lines between ifdef::name[] (ifndef::name[]) and endif::[] are taken into account only if the attribute is (is not) set, by the caller or by a declaration before, and if all the conditions around them hold; ifdef::name[text] on one line stands for its text or for nothing. The page is the one of the document that consists of the chosen lines: its sections, lists, blocks, markup, references to sections, table of contents, header, and references to attributes.", "quantifier": "all documents with conditions nested to any depth, any number of lines, declarations and resets between and within them, and all attributes given by the caller", "why_tests_cant": "an end-to-end guarantee for infinitely many documents and nestings; whether a condition holds depends on all declarations before it", "anchors": ["libasciidoc.go:Convert", "pkg/parser/document_preprocessing.go:preprocess", "pkg/parser/document_preprocessing.go:conditions", "pkg/types/types.go:IfdefCondition", "pkg/types/types.go:IfndefCondition", "pkg/parser/parser.peg:DocumentRawLine"]}
{"id": "C72", "title": "Documents in several files: included files take the place of the directives, to any depth", "statement": "For a document with include directives (include::path[] or include::path[leveloffset=+n]), whose files may in turn contain include directives, conditions (ifdef, ifndef, endif, nested to any depth), declarations, titles and delimited blocks: after preprocessing the text is the one of its lines, with the lines of the included files in the place of the directives, titles outside of blocks moved down by the sum of the offsets around them, titles inside blocks untouched, and the lines under conditions kept or dropped depending on the attributes given by the caller and set before. The page that Convert writes is the one of these lines written in one file. Inclusion directives are recognised by their text, and paths are relative to the file they are written in.", "quantifier": "all trees of lines, titles, declarations, resets, conditions, blocks and included files, of any depth; all file systems that contain the files; all attributes given by the caller", "why_tests_cant": "the nesting of files, blocks and conditions is unbounded, and offsets, conditions and blocks interact", "anchors": ["pkg/parser/document_preprocessing.go: preprocess, includeFile, contentOf, readAll, levelOffsets", "pkg/parser/context.go: Clone", "pkg/parser/parser.peg: FileInclusion, FileLocation, InlineAttributes, RawSection", "pkg/types/types.go: FileInclusion, RawSection.OffsetLevel"]}
{"id": "C73", "title": "Parts of files: lines=, tags= and leveloffset= together, down to the page", "statement": "An include directive include::path[lines=...] (or tags=..., with or without double quotes, alone or followed by leveloffset=+n) stands for exactly the wanted lines of the file, in the order of the file: for lines=i..j those from the i-th to the j-th, for lines=i..-1 those from the i-th on; for tags=name those between the line with tag::name[] and the line with end::name[]; in general, those in one of the ranges, or those for which the last of the selectors that apply is no exclusion, and never the lines with tags themselves. What is in the other lines of the file - titles, directives, unbalanced conditions - has no effect. This holds at every depth of inclusion, and the page that Convert yields is the one of the document that consists of these lines.", "quantifier": "all files and all lists of ranges and selectors in the documented syntax, all documents with inclusions, conditions and blocks nested to any depth", "why_tests_cant": "the files, the lists of ranges and the nesting are unbounded; what is selected by tags depends on all lines before", "anchors": ["pkg/parser/document_preprocessing.go: contentOf, lineRanges, tagRanges, readWithinLines, readWithinTags", "pkg/parser/parser.peg: FileInclusion, InlineAttributes, NamedAttribute, DoubleQuotedAttributeValue, LineRanges, TagRanges", "pkg/types/types.go: LineRanges.Match, TagRanges.Match", "libasciidoc.go: Convert"]}
{"id": "C74", "title": "References lead to the last element that bears the identifier, wherever it is", "statement": "A reference `<<id>>` in a converted document leads to, and shows the title of, the last element from top to bottom that bears this identifier together with a title: a paragraph, image, delimited block, list, element of a list, table, an anchored term of a labeled list, or a section, at any depth of nesting (in blocks, elements of lists, cells of the header, the rows and the footer of tables). A title of text is shown as it is, one with markup (without links) as it is rendered elsewhere; if no element bears the identifier with a title, the identifier is shown in brackets. A section never takes an identifier that an element above it bears: it gets the first of base, base_2, base_3, ... that is free, whatever follows.", "quantifier": "every document (sequence of sections and elements nested to any depth), every identifier, every reference", "why_tests_cant": "Where an element is nested, what else bears the same identifier, and in which order, cannot be enumerated by tests.", "anchors": ["pkg/types/types.go: List.Reference, CalloutListElement.Reference, OrderedListElement.Reference, UnorderedListElement.Reference, LabeledListElement.Reference, Paragraph.Reference, ImageBlock.Reference, DelimitedBlock.Reference, Section.Reference, Table.Reference, Section.ResolveID", "pkg/parser/document_processing_aggregate.go: aggregate", "pkg/renderer/sgml/cross_reference.go: renderInternalCrossReference", "pkg/renderer/sgml/table_of_contents.go: prerenderTableOfContentsEntry"]}
{"id": "C75", "title": "The widths of the columns of a table follow their weights and add up to 100", "statement": "A table has the columns of its attribute `cols`, each as often as its multiplier says, and further columns of weight 1 if its first row has more cells. Without `~` and without the option autowidth, each column gets, in percent, its share of the sum of the weights, up to a ten-thousandth for each column, and the widths add up to at least 100, and to at most 100 and a ten-thousandth for each column but the last; if the shares have at most four decimals, they are written exactly and add up to 100. If some column has the width `~`, the numbers of the others are their widths; with the option autowidth no width is written. There is one width for each column.", "quantifier": "every list of columns, of any number, with any weights that are not negative and not all zero", "why_tests_cant": "the number of columns and their weights are unbounded, and the last width depends on the rounding of all before", "anchors": ["pkg/types/types.go: Table.Columns, newDefaultTableColumn", "pkg/renderer/sgml/table.go: renderTable"]}
{"id": "C76", "title": "Images are taken from imagesdir, each on its own", "statement": "An image, in a line or on its own, is written with the address `imagesdir`/path if imagesdir is given, not empty, and the path is relative (no scheme, no slash at the beginning, not an absolute URL), with exactly one slash between them unless imagesdir ends with more; otherwise with the address as it stands. The alternative text is the one given, otherwise made from this address; width, height and link, and for an image in a line its title, are written exactly if given; the classes are the float, `text-` and the alignment, and the roles, in this order. Images on their own with titles are captioned with the label of figures and numbers one after the other, unless they have captions of their own. Any number of images, each at its own place in the document, are written one after the other, none affecting the address of another. If imagesdir begins with a slash or is a URL, an image that is rendered more than once (the title of a section, also shown in the table of contents) keeps its address.", "quantifier": "every sequence of images, every imagesdir, every path and scheme, all values of the attributes, html5 and xhtml5", "why_tests_cant": "The renderer changes the address within the document, so what is written depends on what was rendered before; sequences and addresses are unbounded.", "anchors": ["pkg/types/types.go: Location.SetPathPrefix, Location.ToString", "pkg/renderer/sgml/image.go: renderImageBlock, renderInlineImage, getImageSrc, renderImageAlt", "pkg/renderer/sgml/html5/image.go", "pkg/renderer/sgml/xhtml5/image.go"]}
{"id": "C77", "title": "A table is written row by row and cell by cell, each cell as its column says", "statement": "A table with at least one row is written as: its identifier, frame, grid, stripes and float as given (frame and grid are `all` otherwise); its roles; its width in percent if that is below 100, else the class `stretch`, or `fit-content` with the option autowidth; its caption (its own, or the label of tables and the next number) and title, if it has a title; one column for each width; the header between `<thead>` and `</thead>` if there is one; every row in order; the footer between `<tfoot>` and `</tfoot>` if there is one. In every row, each cell stands in order, with the alignment of its own column (the columns are those asked for, repeated as their multipliers say, and further ones with the alignment left and top), as `th` if that column has style h, and contains all its paragraphs and blocks in order. Nothing of the cells is lost, repeated or moved.", "quantifier": "every table: any number of rows, cells, paragraphs and blocks in cells, with and without header and footer, every cols, title, sequence of roles and other attributes; html5 and xhtml5", "why_tests_cant": "The numbers of rows, cells and items are unbounded, and the column of each cell depends on multipliers and on the first row.", "anchors": ["pkg/renderer/sgml/table.go: renderTable, renderTableHeader, renderTableRow, renderTableCell, renderTableFooter", "pkg/renderer/sgml/html5/table.go", "pkg/renderer/sgml/xhtml5/table.go", "pkg/renderer/sgml/sgml.go: halign, valign", "pkg/types/types.go: Table.Columns"]}
{"id": "C78", "title": "Links lead to the address that is written", "statement": "A link is written as one element `a` whose href is the address (scheme and path) escaped, so that a browser reads exactly the address that was written, and no character of the address ends the attribute. It says its text, escaped, or its inline elements if given, otherwise the address itself (without `mailto:`), and then has the class `bare` unless it is an address of mail. Roles, identifier and window become class, id and target, in this order and exactly if given; a link that opens in the window `_blank`, or has the option noopener, has rel=\"noopener\". A reference to another document leads to the address with `.html` in place of its extension; one whose last part has no extension leads to a place in this document, `#` and what is written.", "quantifier": "every scheme, path, text and sequence of roles, all attributes of the link, html5 and xhtml5", "why_tests_cant": "Addresses and texts are unbounded and any character may occur in them; which attributes are written depends on the others.", "anchors": ["pkg/renderer/sgml/link.go: renderLink", "pkg/renderer/sgml/cross_reference.go: renderExternalCrossReference, getCrossReferenceLocation, defaultXrefLabel", "pkg/renderer/sgml/html_escape.go", "pkg/renderer/sgml/html5/link.go", "pkg/types/types.go: Location.ToString, Location.ToDisplayString"]}
