# Formal model of bytesparadise/libasciidoc in Lean 4 — design

The model lives in `lean/Verif/`. `Model/` holds the definitions (each citing the Go lines it models),
`Props/` the property theorems with their specifications and non-vacuity examples, `Proofs/` helper lemmas.

## Trusted base

* Lean 4.33.0's kernel and the axioms `propext`, `Classical.choice`, `Quot.sound` (no others; none of our own;
  no compiled-code tactics). `AXIOMS.md` lists, for each theorem of `MANIFEST.json`, the axioms it depends on.
  Facts that are computed (the certificate of the grammar, the checks of templates, concrete samples) are evaluated
  by the kernel (`decide +kernel`, or `Eq.refl` checked by the kernel, `Proofs/KernelRfl.lean`), not by compiled code.
* Our reading of the Go source (the code is not run here). Each definition cites file and lines; `COVERAGE.md`
  (made by `tools/coverage.py`) lists all functions of the code and the modules that cite them.
* Two translators: `tools/peg2lean.py` prints parser.peg as `Model/Grammar.lean`, `tools/tmpl2lean.py` prints the
  template constants as `Model/Templates.lean`. The interpreters of what they print (`Model/Peg`, `Model/Values` for
  pigeon's semantics; `Model/Template` for text/template) are hand-written. The programs that compute certificates
  (`tools/pegcert.py`, `tools/peglines.py`) are not trusted: the kernel checks what they compute.
* Go runtime/stdlib assumptions used by the model: `bufio.Scanner` with `ScanLines` and its default token
  limit, `strings.Builder`/`Replace`/`Repeat` semantics, `sort.Sort` returns *some* sorted permutation,
  map iteration order is arbitrary, channels are FIFO and bounded, `os.Chdir` is process-wide,
  `fmt.Sprintf("%v", x)` is a function of `x`, text/template as in `Model/Template`.

## What is modelled

* pkg/parser: preprocessing (`Scan`, `Include`, `Preprocess`, `Ifeval`, `Cwd`), the whole grammar (`Grammar`, `Peg`,
  `Values`) with the code of the actions that the theorems about pages need (`Actions`, `RawLine`), the loop over
  fragments (`FragmentLoop`, `FragmentValues`), refinement (`Refine`), substitutions (`Substitute`, `Subs`, `AttrRefs`,
  `Placeholders`), arrangement of lists (`Lists`), footnotes (`Footnotes`), filtering (`Filter`), aggregation
  (`Aggregate`, `Ids`, `Xrefs`, `Targets`), the pipeline of channels (`Pipeline`), and all these one after the other (`Stage`).
* pkg/types: elements (`Elements`), attributes (`Attributes`), tables (`Table`), merging (`Merge`), identifiers (`Ids`).
* pkg/renderer: all of sgml, html5 and xhtml5 (`Render`, `Template`, `Templates`, `Escape`, `Numbers`, `Captions`).
* pkg/validator, pkg/configuration, libasciidoc.go `Convert` and the command line (`Validator`, `Config`, `Output`).

## What is not modelled

* `ConvertFile` (opens the file and calls `Convert`), `main`, the `version` command, parser statistics, logging and
  durations.
* Front matter: that YAML is parsed to a map (`NewYamlFrontMatter`, gopkg.in/yaml) is a parameter.
* Highlighting of source blocks (chroma): a function `Lib.highlight`, with what a theorem needs assumed (`Highlights`).
* User macros: templates given by the caller, parameters.
* File system: a function from paths to contents (`Env`), constant during a conversion; only C09 is about the directory.
* Bytes that are not UTF-8; integers that overflow; memory.
* The code between braces of the grammar, wherever `Actions` does not give it: `S.pred` (predicates `&{…}` and state),
  and `A` (values of actions) are parameters, quantified over, with what a theorem needs as named hypotheses (below).
  What holds for all of them (C45–C47, termination) needs none.

## Hypotheses about parameters

Theorems about the parser and about pages have hypotheses of the following names. They say what the code does that is a parameter,
and are not claims about documents. For each there is a sample which meets them all together (files `*Sample`, `sample_to_page`).

* About predicates of the grammar (`S`): `ChecksProgress` (C45: the check that something was read), `Follows` (known answers),
  `Code` (C48, C59), `NilElement`, `LenCode`, `BlockCode` (length of delimiters), `RawCode`, `Reads` (raw lines), `SectCode`,
  `ListCode`, `HeadCode`, `AuthorCode` (rules enabled in headings, lists, header), `Tracks`, `Inl` (the tracked byte),
  `Enabled` (substitutions that are on), `Classes`, `AsciiClasses` (letters and numbers in Unicode agree with ASCII), `C72.Includes`.
* About actions (`A`): `Obeys` (they have the values that `Model/Actions.code` gives).
* About the stages' use of the parser: `World`, `Speaks`, `Grammatical`, `Spoken` (inline content is read with the rule `NormalGroup`),
  `Shrinks`, `ReadsBlocks` (content of blocks is read with `DelimitedBlockElements`).
* About the libraries: `LibOk`, `Highlights`; about the configuration: `Article`, `Standard`.
* About documents, given to the renderer directly (C51–C55): `CleanDoc`, `Ranked`, `NoPanic`, `NoFail` (Spec/Clean, Spec/Renderable).

## Findings

Where the code does not do what the property says, the failure is a theorem too (names with `finding`); the property is then proved under
the hypothesis that excludes it, and has status `partial` if the hypothesis is part of the claim. `grep -rn "theorem finding" lean/Verif`
lists them.

## General modelling conventions

* Text is `List Char` (valid UTF-8 only). Go `int` is `Int`/`Nat` (no property here is about overflow).
* Errors and panics are explicit outcomes. `nil` is an explicit case.
* Maps are association lists; where Go iterates over a map the model ranges over every permutation.
* Pointers that are shared are modelled by threading the updated value to every holder.
* The PEG parser: in C01–C44 a parameter except for the rules modelled explicitly; from C45 on, the whole grammar is
  modelled (`Model/Grammar.lean`, generated from parser.peg), the code between braces being a parameter.

## Per property plan

* **C01 Conditional inclusion keeps exactly the enabled lines** — Model `preprocess` line by line over an arbitrary line classifier; prove output = lines visible under a positional specification of open conditionals. Induction over the lines with a stack invariant.
* **C02 Preprocessing is the identity on directive-free text** — Model bufio.ScanLines incl. its 64KiB token limit; identity theorem for lines under the limit, negation witness for a longer line.
* **C03 `lines=` includes exactly the selected line numbers** — Model LineRanges.Match on every sorted permutation; prove output = filter by membership in some range.
* **C04 `tags=` includes exactly the selected tagged regions** — Model readWithinTags with the region map as association list with arbitrary iteration order; prove last-applicable-selector semantics, error for missing tag; witness for the nil dereference on a stray `end::`.
* **C05 Level offsets shift included sections consistently** — Model level offsets as shared mutable cells threaded through preprocess; arithmetic theorems by induction on the section list; witness for the panic on negative heading depth.
* **C06 Attributes given through the API cannot be overridden by the document while parsing** — Model contextAttributes as two maps; refinement to an abstract map over every operation sequence.
* **C07 File inclusion terminates exactly when the include graph is well-founded** — Fuel-indexed preprocess; well-founded include relation implies some fuel suffices and the result is fuel independent; self inclusion runs out of every fuel.
* **C08 Included files are isolated from the including file** — Theorem about one include step: attributes, conditions, tracker of the parent state unchanged, offsets unchanged except for the documented absolute-offset cell (aliasing finding).
* **C09 The process working directory is restored after an inclusion** — State machine of open/close with the working directory as shared state; sequential restoration for all outcomes; interleaving witness for two concurrent conversions.
* **C10 The concurrent pipeline computes the sequential composition of its stages** — Small-step state machine of a chain of stages over bounded FIFO channels; invariant: for every reachable state the already-consumed and in-flight fragments determine the sequential result; progress and termination measure.
* **C11 A fragment in error does not affect the others** — Theorems on aggregate over fragment streams.
* **C12 Aggregation neither loses, duplicates nor reorders content** — Aggregator model with an explicit open-section stack; flatten(result) = input by induction.
* **C13 Sections nest by level** — Invariant on the stack of open sections, plus nearest-smaller characterisation.
* **C14 Section identifiers are unique and always found** — ResolveID loop modelled as search over suffixes; termination by pigeonhole; uniqueness invariant over the refs map; witness for the empty id.
* **C15 Generated identifiers only contain safe characters** — ReplaceNonAlphanumerics modelled over characters with abstract letter/digit classification.
* **C16 The table of contents lists exactly the sections up to the chosen depth** — TableOfContents.Add model; preorder theorem; nesting theorem for gap-free documents; witnesses of wrong nesting.
* **C17 Preamble insertion preserves the document** — insertPreamble model; flatten theorem.
* **C18 Footnotes are numbered 1..n in order and references resolve** — Footnotes.Reference over arbitrary sequences; refinement to a numbering spec.
* **C19 List arrangement keeps every element, in order, in homogeneous lists** — listStack model; in-order traversal theorem; homogeneity invariant; witnesses for AdjustStyle.
* **C20 Filtering removes comments and blank lines and nothing else** — doFilterOut on a tree type; absence, retention and idempotence by structural induction.
* **C21 Merging inline elements preserves the text** — merge on nested inline lists; normal form and text preservation.
* **C22 The `subs` attribute denotes the documented set of substitutions** — newSubstitutions fold against a declarative reading.
* **C23 Attribute references are replaced by the current value, unknown ones stay literal** — Model/Substitute: the whole substitution stage (all functions of document_processing_apply_substitutions.go), with the parser as a parameter. Spec/Substitution: the places of a document in reading order, the value of each attribute at each place, and what is there afterwards. Proved by an invariant of the walk.
* **C24 Counters count** — valueForCounter over arbitrary reference sequences.
* **C25 Placeholders for already processed elements are restored faithfully** — serialize/restore with a concrete placeholder scanner; round trip; witness with U+FFFD in user text.
* **C26 Table cells are distributed over rows without loss** — Table row organisation; concat and size theorems; witnesses for panics.
* **C27 Escaped text contains no markup-significant character** — Escaper as character map; decode left inverse.
* **C28 ASCII entity conversion yields ASCII and is reversible** — asciiEntify; decode left inverse.
* **C29 Section numbers are hierarchical and consecutive** — SectionNumbers traversal; spec by paths.
* **C30 Captioned blocks are numbered consecutively per kind** — Caption counters as state machine over rendering history.
* **C31 Manpage validation reports no problem iff the document has the required structure** — Validator decision logic, with explicit panic outcome.
* **C32 Configuration settings compose predictably** — Settings as functions on a record; algebraic laws.
* **C33 Attribute merging keeps roles and options cumulative and other keys last-wins** — Attributes.Set/SetAll fold.
* **C34 A failed conversion writes nothing** — Render as effectful function with an output log; theorem on the log at each failure point.
* **C35 `ifeval` compares as documented** — Operand functions; plus PEG ordered choice model of the operator rule.
* **C36 `ifdef` and `ifndef` are complementary tests of attribute presence** — Eval functions over attribute histories.
* **C37 Delimited blocks protect the headings they contain in included files** — Block delimiter tracker + classifier gate.
* **C38 Cross references by title and by id find the section** — Shared id algorithm between section and reference.
* **C39 Range selectors are parsed as written** — PEG rules LineRanges/TagRanges as executable recognisers; print/parse round trip.
* **C40 Converting twice with one configuration gives the same result** — Aliasing model of config.Attributes between Convert calls; negation witness and partial theorem.
* **C41 Splitting a source block in lines preserves its content** — Model of the line splitter; join theorem by induction.
* **C42 Positional attributes get their names** — Model of toAttributesWithMapping with the iteration order as a list; exact result proved for every table of the code and every permutation.
* **C43 Attributes of the command line** — Model of parseAttributes as a fold; spec by last occurrence.
* **C44 The page around a standalone document** — Templates as lists of pieces; shape theorems.
* **C45 Parsing always ends** — The whole grammar (338 rules) translated to an expression type by tools/peg2lean.py, with an interpreter of pigeon's semantics parametrised by the code of predicates and actions. Certificate (nullability, ranks) computed outside and checked by the kernel; termination by induction on the length and the rank.
* **C46 Splitting a document into fragments ends and is gapless** — Model of the loop over the parser; induction on the length of the text.
* **C47 Every text is accepted as inline content** — Each iteration of the group falls back on a newline or any character; progress from C45.
* **C48 Every document of ordinary lines is accepted** — DocumentFragment falls back on BlankLine and Paragraph; line-end analysis of the grammar checked by the kernel; counterexamples by an interpreter that collects all possible results.
* **C49 Delimited blocks extend to the line that closes them** — The rules of blocks in the grammar; iteration over lines by induction on the text; alternatives tried before are excluded by the prefix interpreter and by hand.
* **C50 The lines that preprocessing acts upon** — The rule of raw lines in the grammar, compared with hand-written parsers of the shapes (Model/RawLine) and these with a specification; then induction on the lines of the document.
* **C51 The output is well-formed** — Model of the whole renderer (Model/Render) with the templates translated by a tool and an interpreter of text/template; a grammar of well-formed markup (Spec/Markup); a checker of templates proved sound (Proofs/TemplateCheck), run by the kernel on each template; induction on the depth of the rendering.
* **C52 No text is lost, and it stays in order** — A specification of the words of each element (Spec/Content); an analysis of templates that says which fields are written in which order, proved sound and run by the kernel on each template (Proofs/ContentSays); induction on the depth of the elements, with the flags of the context (within a block, within lists) as invariant.
* **C53 Rendering ends** — The renderer of C51, with a bound on the depth of recursion. A logic for the computations of the renderer that tracks the errors they may end with and what stays true of the attributes of the document (Proofs/Runs*); induction on the depth, with rank times size as measure. That the bound is not part of the result: a relation between runs of different depths, kept by every function (Proofs/Depth).
* **C54 Rendering does not panic** — Same logic, with panics as the error to exclude.
* **C55 Well-shaped documents are converted** — Same logic, with no error allowed; a check of the types of the fields of each template, proved sound and run by the kernel on each of them.
* **C56 The result does not depend on the order of Go's maps** — Model/Substitute is run on two documents that differ by permutations of attribute lists; agreement by induction on the pair of documents. The order of the list stands for Go's iteration order.
* **C57 Substitutions do not crash the program** — Every failure of the pieces of Model/Substitute is shown to be an error, except at the three places that can panic; for those, that the condition on the source holds after substitution.
* **C58 Text without markup is left as it is** — Model/Values: the PEG interpreter with the values it builds; Model/Actions: the code of the actions that plain text meets. Proofs/Dead: an analysis of expressions that cannot match where given strings do not occur, run on the rules of the grammar and proved sound; then the values of the remaining alternatives, the loop by induction on the text, and the merging of the pieces.
* **C59 Plain prose becomes paragraphs** — Model/FragmentValues: the loop of ParseDocumentFragments with the values of the grammar; Model/Actions: the code of the actions for lines and paragraphs. Proofs/Exactly: evaluation of an expression to exactly one value. Each rule tried before Paragraph is shown never to match a line of prose, the lines by induction, the document by induction on its blocks; then the substitutions of paragraphs (Model/Substitute) with C58.
* **C60 Plain prose goes through to the page** — Spec/Prose: the page, by a direct definition. Props/Prose: the models of all stages one after the other (Stages): C50 document_unchanged, C59 paragraphs_preprocessed, C61's model, C59 left_as_they_are, then the models of C18, C19, C20, C12 on paragraphs and the renderer (Model/Render) with the real templates, by induction on the blocks.
* **C61 Only the content of blocks and cells is parsed again** — Model/Refine: document_processing_refine_fragments.go, with the parser as a parameter and a bound on the recursion. The bound is irrelevant (induction), it ends by a measure (the text left to parse), the rest by induction on cells and rows.
* **C62 Documents with delimited blocks go through to the page** — Spec/Composed: documents and pages by direct definitions. Props/BlockValues, BlockParse: the values of the rules for blocks and of the loop (as C59, with the lengths of delimiters of C49); BlockRefine: Model/Refine with DelimitedBlockElements, by induction on the nesting; BlockSubst: Model/Substitute with C58; BlockRender: Model/Render with the real templates; Composed: the other stages, and all of them together.
* **C63 Documents with sections go through to the page** — Spec/Sectioned: documents, identifiers and pages by direct definitions. Props/Heading, SectionParse: the value of the rule Section for a title without markup, and of the loop; Proofs/Nested: the stack of Aggregate builds the tree in which a section contains what follows up to the next level that is not greater; SectionIds: the loop of ResolveID finds the first free name; SectionRender: templates for sections; Sectioned: all stages together.
* **C64 Lists go through to the page** — Spec/Listed: marks, items, nested lists and their HTML by direct definitions (which list an item belongs to is given by the nesting, conditions on marks say when it is the one meant). Props/ListParse, ListItems, ListLines, ListFragment: the value of ListElements for such lines; ListEnd: what cannot continue a list; ListArrange: the stack of arrange_lists builds the nesting that is meant (from C19); ListStages: the other stages; ListRender: templates; Sectioned, Listed: all stages together.
* **C65 Inline markup goes through to the page** — Spec/Inlined: pieces of text, how they are written and shown, and where marks count, by direct definitions. Proofs/Holds: a logic for values of the parser that depend on the byte it tracks (global store, not restored on backtracking). InlineText, InlinePlaces: text between marks; InlineValues: values and the HTML they stand for, through merging; InlineSigns, InlineMarks: each sign and mark; InlineLoop, InlinePieces: pieces of any nesting, by mutual induction; InlineSubst: the stage of substitutions; InlineRender: templates and symbols; Inlined: all stages together, and that readings are unambiguous (by determinism of the parser).
* **C66 The document header goes through to the page** — Spec/Headed: authors, revisions and headers, how they are written, and the page, by direct definitions. HeaderParse: the rules of the header, by Exactly/Never; HeaderLoop: the header is the first fragment, by replacing the answer of the predicate that allows it. HeaderKeys: the attributes that authors and revision become, and what is found under every key (keys of different authors differ). HeaderRender, HeaderPage: the header and the page, by steps through the templates. HeaderStages: the other stages; the preamble. Headed: text_to_page. HeadedSample: the hypotheses are met. HeaderFindings: what is read otherwise than one expects.
* **C67 Attribute declarations, references and counters go through to the page** — Spec/Referenced: texts as lists of characters, references and counters, a state (given, declared, counts), what a text shows in a state and the state after it, by direct recursion. RefText, RefMerge, RefSubst: the grammar reads such a text as its parts, merging gives the elements, and the two phases of substitution show it (Knows relates the context of the code to the state). RefDeclare, RefLoop: declarations and resets are read as such, a document is cut into its items. RefValues: declarations and resets change the context as the state. Model/Stage: all fragments with one context. RefRender, Referenced: the page and the composition, by induction over the items with the state threaded.
* **C68 The table of contents goes through to the page** — Spec/Outlined: the listed sections, Gapless, and the table as HTML by recursion over the list (entries below a section: those up to the next one whose level is not greater). Outline: adding sections one by one (types.go:236-268) yields that tree (grow, fold_grown, by induction on the length of the list), the titles are those recorded for the identifiers, and the templates give the HTML of the specification. Outlined: identifiers are unique, so every entry has its own title; composition with the stages of C63 (stages_of).
* **C69 Sections, lists and blocks with inline markup go through to the page** — Spec/Woven: the page of C63 with the paragraphs of C65. WovenTree: the aggregation, the tree of sections and its rendering, generalised over what the items become and how the result is translated for the renderer; Woven: the stages of C63 for items, where the paragraphs become what the substitutions of C65 make of them; the table of contents by C68.
* **C70 References to sections lead there and show their titles** — Spec/Inlined has references among its pieces, shown by a View (the place meant by a reference, and what is shown for a place); Spec/Woven gives the View of a document: titles are turned into identifiers, identifiers show titles. InlineCross: the rules for references (exactly_ref), which are tried before special characters; Model/Xrefs: the resolution at the end of the aggregation; WovenRefs: it agrees with the View (sees), as identifiers are unique (C68.recorded); Crossed: corollaries; CrossFindings.
* **C71 Conditions choose lines, nested to any depth, down to the page** — Spec/Chosen: documents as trees of lines, declarations, resets and conditions; what is written, and which lines are chosen. Proof by induction over the tree, for every stack of conditions around it (parts_amount), with the classification of lines of C50; the pages by C66, C67 and C69.
* **C72 Documents in several files: included files take the place of the directives, to any depth** — Spec/Included: documents as trees of lines, titles, declarations, resets, conditions, blocks and included files; what is written in each file, and the lines that it amounts to. The line of a directive is read by the grammar (Props/IncludeLine: FileLocation and InlineAttributes consume exactly the path and the brackets). Proof by induction over the tree, for every depth budget that suffices (parts_amount), with chunks of text compared to lines (Same); the pages by C66, C67 and C69. Assumption Includes: the action of the rule returns the path and the offset as written.
* **C73 Parts of files: lines=, tags= and leveloffset= together, down to the page** — Spec/Included: Pick (all, lines=, tags=), picked (the wanted lines, by C03.InRange and C04.Selected), Contains. The attributes in brackets, with quotes and commas, are read by the grammar (yields_value, yields_named, star_attributes); the texts stand for ranges and selectors by C39; what is read is picked (read_picked, by C39.include_lines and C04.loop_spec), and the induction of C72 does the rest. Props/IncludedPick: the single region and the single range, by induction over the lines, and a document with both.
* **C74 References lead to the last element that bears the identifier, wherever it is** — Model/Targets: the methods Reference of types.go, on a type of the elements that have one, and the loop of the aggregation; the map is the list of its assignments. Spec/Referable: the elements of a document from top to bottom, the names they bear, and Leads (the last one of that name). The recursion assigns exactly these names in this order (mutual induction); what is looked up is the last of them (induction); sections by the search for a free candidate of C14; what is shown by the steps of the renderer (C70).
* **C75 The widths of the columns of a table follow their weights and add up to 100** — Model/Widths: lines 4016-4048 of types.go on rational numbers, with the truncation of the product as a parameter (Truncates: it loses less than one, or exactly one); the columns are Rend.columns of Model/Render. Rounding to six digits stays between two multiples of a ten-thousandth (sixDigits_between); induction over the columns with the sum of what was truncated so far. Not modelled: the rounding of float64 itself, whose error (about 1e-14) is below the sixth digit unless a number is that close to a half of it.
* **C76 Images are taken from imagesdir, each on its own** — The model of the renderer (Model/Render), where the prefixes that were put before the path of each location are part of the state. Spec/Pictures: source (where an image is taken from) and html (what is written for it). The steps of renderImageBlock and renderInlineImage, with the templates evaluated for all values of the fields (src_any, block_written, inline_written); induction over the images. url.Parse and the alternative text made from an address are parameters. The classes are float, text- and the alignment, and the roles, with spaces between (image_roles). data-uri is excluded; Images on their own with titles (Props/Figures): the caption before the title, numbered through the list by induction, with the lemmas on replacing from C77.
* **C77 A table is written row by row and cell by cell, each cell as its column says** — The model of the renderer (Model/Render: renderTable and what it calls). Spec/Tables: Grid (header, rows of cells of items, footer), columns, html and page, by direct definitions. Templates evaluated for all values of the fields, the one of the table by steps through it (text_step, out_step, cond_step, zero_step, loop_step); cells, rows and header by induction with the index of the column (rowCells_written, headCells_written). What the items in cells are rendered as is a parameter (Renders; the renderer on them does not change the context), and so are the widths (C75) and strconv.Atoi.
* **C78 Links lead to the address that is written** — The model of the renderer (Model/Render: renderLink, renderExtXref). Spec/Links: Link, its label, html by direct definition. The template by steps through it (link_written); roles by induction; what a browser reads by C27 (decode). Label with inline elements: what they are rendered as is a parameter (Renders). Prefixes of locations (imagesdir) are those of images only.
