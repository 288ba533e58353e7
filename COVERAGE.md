# Functions of the Go code and the modules of the model

Made by tools/coverage.py: a module is named where a comment of lean/Verif/Model cites lines of the function
(483 of 724 functions).  Functions without citation are accessors, constructors and one-line helpers that
are part of the definition of their callers (in brackets, where), except for the 6 that are **not modelled**:

* `main` in cmd/libasciidoc/main.go
* `defaultCloseFunc` in cmd/libasciidoc/root_cmd.go
* `NewVersionCmd` in cmd/libasciidoc/version_cmd.go
* `ConvertFile` in libasciidoc.go
* `PrettyPrintStats` in pkg/parser/stats.go
* `NewYamlFrontMatter` in pkg/types/types.go

The grammar (pkg/parser/parser.peg) is modelled as a whole: Model/Grammar.lean, 338 rules, generated by
tools/peg2lean.py; so are all templates of html5 and xhtml5: Model/Templates.lean, generated by tools/tmpl2lean.py.

## cmd/libasciidoc/main.go

* `main` (12-21): **not modelled**

## cmd/libasciidoc/root_cmd.go

* `NewRootCmd` (19-86): Config, Output
* `defaultCloseFunc` (90-92): **not modelled**
* `newCloseFileFunc` (94-98): Output
* `getOut` (100-123): Config, Output
* `parseAttributes` (126-137): Config

## cmd/libasciidoc/version_cmd.go

* `NewVersionCmd` (11-24): **not modelled**

## libasciidoc.go

* `ConvertFile` (33-46): **not modelled**
* `Convert` (50-101): Config, Output, Validator

## pkg/configuration/configuration.go

* `NewConfiguration` (12-30): Config
* `WithFigureCaption` (52-56): Config
* `WithLastUpdated` (59-63): Config
* `WithAttributes` (66-70): Config
* `WithAttribute` (73-77): Config
* `WithHeaderFooter` (80-84): Config
* `WithCSS` (87-91): Config
* `WithBackEnd` (94-111): Config
* `WithFilename` (114-118): Config
* `WithMacroTemplate` (121-126): Config

## pkg/parser/context.go

* `NewParseContext` (21-41): Captions, Config, Preprocess, Render, Substitute
* `ParseContext.Clone` (43-52): Captions, Config, Render
* `options.clone` (56-60): Captions
* `newContextAttributes` (68-74): Captions, Preprocess
* `contextAttributes.clone` (76-84): Captions
* `contextAttributes.allAttributes` (86-96): Preprocess
* `contextAttributes.get` (98-104): Preprocess, Substitute
* `contextAttributes.getAsIntWithDefault` (106-111): Ids
* `contextAttributes.set` (113-120): Preprocess, Substitute
* `contextAttributes.unset` (122-126): Preprocess, Substitute
* `contextAttributes.setAll` (128-134): Preprocess, Substitute

## pkg/parser/document_preprocessing.go

* `Preprocess` (20-23): Preprocess
* `preprocess` (25-81): Preprocess, Scan
* `newBlockDelimiterTracker` (92-96): (Preprocess: field of the state)
* `blockDelimiterTracker.track` (98-110): Preprocess
* `blockDelimiterTracker.withinDelimitedBlock` (112-114): (Preprocess: field of the state)
* `includeFile` (120-138): Preprocess
* `builder.WriteString` (146-152): Preprocess
* `builder.Write` (154-160): Preprocess
* `builder.doInsertLF` (162-168): Preprocess
* `newConditions` (175-179): Preprocess
* `conditions.push` (186-192): Preprocess
* `conditions.pop` (194-200): Preprocess
* `conditions.eval` (202-213): Preprocess
* `contentOf` (215-274): Preprocess, Scan
* `levelOffsets.apply` (278-286): Preprocess
* `levelOffsets.clone` (288-292): Preprocess
* `levelOffset.apply` (300-308): Preprocess
* `relativeOffset` (310-315): Preprocess
* `absoluteOffset` (317-322): (Preprocess: field of the state)
* `lineRanges` (326-338): Include
* `tagRanges` (342-354): Include
* `readWithinLines` (358-386): Include
* `readWithinTags` (388-440): Include
* `readAll` (442-467): Include
* `open` (469-514): Cwd
* `IsAsciidoc` (517-520): Preprocess

## pkg/parser/document_processing.go

* `ParseDocument` (16-46): Pipeline

## pkg/parser/document_processing_aggregate.go

* `Aggregate` (17-24): Numbers
* `aggregate` (26-109): Aggregate, Ids, Pipeline, Targets, Xrefs
* `resolveCrossReferences` (111-128): Ids, Xrefs
* `aggregator.append` (132-139): Aggregate
* `aggregator.appendElement` (141-143): Aggregate
* `aggregator.appendSection` (145-157): Aggregate
* `aggregator.indexOfParent` (162-173): Aggregate
* `insertPreamble` (175-201): Aggregate, Numbers
* `newPreamble` (203-222): Aggregate

## pkg/parser/document_processing_apply_substitutions.go

* `ApplySubstitutions` (20-35): Pipeline, Stage
* `applySubstitutionsOnFragment` (37-48): Substitute
* `applySubstitutionsOnElements` (50-57): AttrRefs, Config, Substitute
* `applySubstitutionsOnElement` (59-87): AttrRefs, Config, Substitute
* `applySubstitutionsOnDocumentHeader` (89-101): Config, Substitute
* `applySubstitutionsOnAttributeDeclaration` (104-115): AttrRefs, Config, Substitute
* `applySubstitutionsOnAttributeReset` (117-123): AttrRefs, Config, Substitute
* `applySubstitutionsOnWithTitle` (125-143): Substitute
* `applySubstitutionsOnTable` (145-189): Substitute, Table
* `applySubstitutionsOnWithLocation` (191-214): Substitute
* `applySubstitutionsOnWithElements` (216-264): Substitute
* `reparseAttributes` (266-304): Substitute
* `reparseInlineAttributes` (306-343): Substitute
* `replaceAttributeRefsInAttributeValues` (345-353): Substitute
* `replaceAttributeRefsInValue` (355-377): AttrRefs, Substitute
* `replaceAttributeRefsInSlicedValue` (379-405): AttrRefs, Substitute
* `applySubstitutionsOnSlice` (407-430): Substitute
* `extractMarkdownQuoteAttribution` (432-451): Substitute
* `replaceAttributeRefsInElementsAndReparse` (453-517): AttrRefs, Substitute
* `replaceAttributeRefsInElements` (519-548): AttrRefs, Substitute
* `valueForAttributeRef` (550-565): AttrRefs, Preprocess, Substitute
* `valueForCounter` (567-602): AttrRefs
* `parseWithSubstitutions` (606-652): Placeholders, Substitute
* `serialize` (654-687): Placeholders, Substitute
* `serializePlainText` (689-729): Placeholders, Substitute
* `newPlaceholders` (736-741): Placeholders
* `placeholders.add` (743-750): Placeholders
* `placeholders.restore` (753-769): Placeholders, Substitute
* `enableExperimentalMacros` (777-779): (Substitute)
* `current.isExperimentalEnabled` (782-786): (the store of the grammar: answers of `S.pred` and effects of `S.act` (Grammar); assumptions name what they answer)

## pkg/parser/document_processing_arrange_lists.go

* `ArrangeLists` (11-26): Pipeline
* `arrangeLists` (28-47): (Lists: the stack as a list)
* `arrangeListElements` (49-76): Lists
* `doArrangeListElements` (78-111): Lists
* `newListStack` (117-121): (Lists: the stack as a list)
* `listStack.root` (123-128): (Lists: the stack as a list)
* `listStack.push` (130-142): (Lists: the stack as a list)
* `listStack.get` (145-150): (Lists: the stack as a list)
* `listStack.pop` (153-160): (Lists: the stack as a list)
* `listStack.parentFor` (162-183): Lists

## pkg/parser/document_processing_collect_footnotes.go

* `CollectFootnotes` (8-23): Footnotes, Pipeline
* `collectFootnotes` (25-39): Footnotes

## pkg/parser/document_processing_filter_elements.go

* `FilterOut` (12-27): Filter, Pipeline
* `filterOut` (29-39): (Filter)
* `doFilterOut` (41-92): Filter

## pkg/parser/document_processing_parse_fragments.go

* `ParseDocumentFragments` (12-73): FragmentLoop, FragmentValues, Pipeline
* `current.isFrontMatterAllowed` (78-84): (the store of the grammar: answers of `S.pred` and effects of `S.act` (Grammar); assumptions name what they answer)
* `current.disableFrontMatterRule` (86-88): (the store of the grammar: answers of `S.pred` and effects of `S.act` (Grammar); assumptions name what they answer)
* `current.isDocumentHeaderAllowed` (90-96): (the store of the grammar: answers of `S.pred` and effects of `S.act` (Grammar); assumptions name what they answer)
* `current.disableDocumentHeaderRule` (99-106): (the store of the grammar: answers of `S.pred` and effects of `S.act` (Grammar); assumptions name what they answer)
* `current.storeBlockAttributes` (110-115): (the store of the grammar: answers of `S.pred` and effects of `S.act` (Grammar); assumptions name what they answer)
* `current.isWithinLiteralParagraph` (117-124): (the store of the grammar: answers of `S.pred` and effects of `S.act` (Grammar); assumptions name what they answer)

## pkg/parser/document_processing_refine_fragments.go

* `RefineFragments` (14-29): Pipeline
* `refineFragment` (31-47): Refine
* `refineElement` (49-74): Refine
* `reparseTable` (76-101): Refine
* `reparseTableCell` (103-123): Refine
* `reparseDelimitedBlock` (125-142): Refine
* `reparseElements` (144-168): Refine

## pkg/parser/document_substitutions.go

* `normalSubstitutions` (33-45): Subs
* `headerSubstitutions` (47-58): Subs
* `attributeSubstitutions` (60-71): Subs
* `noneSubstitutions` (73-75): (Subs: substitutions as a list)
* `verbatimSubstitutions` (77-84): Subs
* `newSubstitutions` (90-132): Subs
* `defaultSubstitutions` (134-159): Subs, Substitute
* `allIncremental` (162-171): Subs
* `substitutions.toString` (173-175): (Subs: substitutions as a list)
* `substitutions.split` (180-193): Subs
* `substitutions.contains` (195-202): (Subs: substitutions as a list)
* `substitutions.append` (204-211): (Subs: substitutions as a list)
* `substitutions.prepend` (213-220): (Subs: substitutions as a list)
* `substitutions.remove` (222-238): Subs
* `substitutionsFor` (240-256): Subs

## pkg/parser/parser_ext.go

* `parseContent` (16-29): Substitute
* `parser.setup` (33-60): FragmentLoop, FragmentValues
* `parser.next` (63-119): FragmentLoop, FragmentValues
* `current.trackElement` (123-128): Actions
* `current.isPrecededBySpace` (130-138): Actions
* `current.isInlineMacro` (140-161): Actions
* `current.isSingleQuotedTextAllowed` (165-179): Actions
* `current.isPrecededByAlphanum` (181-189): Actions
* `validateSingleQuoteElements` (192-207): Actions
* `sectionEnabled` (212-214): Actions
* `current.isSectionEnabled` (218-224): (the store of the grammar: answers of `S.pred` and effects of `S.act` (Grammar); assumptions name what they answer)
* `current.isWithinDelimitedBlock` (230-236): (the store of the grammar: answers of `S.pred` and effects of `S.act` (Grammar); assumptions name what they answer)
* `current.setBlockDelimiterLength` (241-244): (the store of the grammar: answers of `S.pred` and effects of `S.act` (Grammar); assumptions name what they answer)
* `current.matchBlockDelimiterLength` (247-249): (the store of the grammar: answers of `S.pred` and effects of `S.act` (Grammar); assumptions name what they answer)
* `current.hasUserMacro` (253-261): (the store of the grammar: answers of `S.pred` and effects of `S.act` (Grammar); assumptions name what they answer)
* `current.withSubstitutions` (266-268): (the store of the grammar: answers of `S.pred` and effects of `S.act` (Grammar); assumptions name what they answer)
* `current.lookupCurrentSubstitutions` (270-276): (the store of the grammar: answers of `S.pred` and effects of `S.act` (Grammar); assumptions name what they answer)
* `current.isSubstitutionEnabled` (278-292): Actions
* `current.isSubstitutionDisabled` (294-296): (the store of the grammar: answers of `S.pred` and effects of `S.act` (Grammar); assumptions name what they answer)
* `current.allSubstitutionsDisabled` (299-305): (the store of the grammar: answers of `S.pred` and effects of `S.act` (Grammar); assumptions name what they answer)

## pkg/parser/stats.go

* `PrettyPrintStats` (9-25): **not modelled**

## pkg/renderer/renderer.go

* `Render` (13-22): Config, Output

## pkg/renderer/sgml/attribution.go

* `newAttribution` (11-22): Render

## pkg/renderer/sgml/blank_line.go

* `sgmlRenderer.renderLineBreak` (7-17): (Render: part of the definition of the caller)
* `sgmlRenderer.renderThematicBreak` (19-29): (Render: part of the definition of the caller)

## pkg/renderer/sgml/context.go

* `newContext` (22-48): Captions, Config, Preprocess, Render, Substitute
* `context.UseUnicode` (50-52): Render
* `context.GetAndIncrementTableCounter` (57-59): Captions
* `context.GetAndIncrementImageCounter` (64-66): Captions, Preprocess
* `context.GetAndIncrementExampleBlockCounter` (71-73): Captions, Preprocess
* `context.getAndIncrementCounter` (76-83): Captions

## pkg/renderer/sgml/cross_reference.go

* `sgmlRenderer.renderInternalCrossReference` (14-62): Ids, Render
* `sgmlRenderer.renderExternalCrossReference` (64-85): Render
* `defaultXrefLabel` (87-94): Render
* `getCrossReferenceLocation` (96-103): Render

## pkg/renderer/sgml/delimited_block.go

* `sgmlRenderer.renderDelimitedBlock` (9-38): Render

## pkg/renderer/sgml/delimited_block_admonition.go

* `sgmlRenderer.renderAdmonitionBlock` (11-48): Render
* `sgmlRenderer.renderAdmonitionParagraph` (50-90): Render

## pkg/renderer/sgml/delimited_block_discard_lines.go

* `discardBlankLines` (7-37): Render

## pkg/renderer/sgml/delimited_block_example.go

* `sgmlRenderer.renderExampleBlock` (13-59): Captions, Render
* `sgmlRenderer.renderExampleParagraph` (61-90): Render
* `sgmlRenderer.renderLiteralParagraph` (92-123): Render
* `adjustHeadingSpaces` (127-151): Elements

## pkg/renderer/sgml/delimited_block_fenced.go

* `sgmlRenderer.renderFencedBlock` (10-41): Render

## pkg/renderer/sgml/delimited_block_listing.go

* `sgmlRenderer.renderListingBlock` (10-44): Render
* `sgmlRenderer.renderListingParagraph` (46-72): Render

## pkg/renderer/sgml/delimited_block_markdown_quote.go

* `sgmlRenderer.renderMarkdownQuoteBlock` (10-39): Render

## pkg/renderer/sgml/delimited_block_open.go

* `sgmlRenderer.renderOpenBlock` (8-35): Render

## pkg/renderer/sgml/delimited_block_passthrough.go

* `sgmlRenderer.renderPassthroughBlock` (10-35): Render

## pkg/renderer/sgml/delimited_block_quote.go

* `sgmlRenderer.renderQuoteBlock` (9-38): Render
* `sgmlRenderer.renderQuoteParagraph` (40-64): Render

## pkg/renderer/sgml/delimited_block_sidebar.go

* `sgmlRenderer.renderSidebarBlock` (8-35): Render

## pkg/renderer/sgml/delimited_block_source.go

* `sgmlRenderer.renderSourceBlock` (17-57): Render
* `sgmlRenderer.renderSourceParagraph` (59-66): (Render: part of the definition of the caller)
* `sgmlRenderer.renderSourceBlockElements` (68-147): Render
* `sgmlRenderer.renderSourceLine` (149-171): Render
* `sgmlRenderer.renderCalloutRef` (173-184): Render

## pkg/renderer/sgml/delimited_block_verse.go

* `sgmlRenderer.renderVerseBlock` (11-45): Render
* `sgmlRenderer.renderVerseParagraph` (47-71): Render

## pkg/renderer/sgml/document_details.go

* `sgmlRenderer.renderDocumentDetails` (13-47): Render, Templates
* `sgmlRenderer.renderDocumentAuthorsDetails` (49-93): Render

## pkg/renderer/sgml/element_id.go

* `sgmlRenderer.renderElementID` (9-14): Render

## pkg/renderer/sgml/element_role.go

* `sgmlRenderer.renderElementRoles` (10-23): Render
* `sgmlRenderer.renderImageRoles` (26-45): Render
* `sgmlRenderer.renderElementRole` (47-66): Render

## pkg/renderer/sgml/element_style.go

* `sgmlRenderer.renderElementStyle` (9-14): Render

## pkg/renderer/sgml/elements.go

* `sgmlRenderer.renderElements` (11-22): Captions, Footnotes, Render
* `sgmlRenderer.renderListElements` (26-43): Render
* `sgmlRenderer.renderElement` (46-117): AttrRefs, Captions, Config, Elements, Footnotes, Lists, Render

## pkg/renderer/sgml/footnote_reference.go

* `sgmlRenderer.renderFootnoteReference` (10-57): Render, Templates
* `sgmlRenderer.renderFootnotes` (59-81): Render
* `sgmlRenderer.renderFootnoteElement` (83-102): Render

## pkg/renderer/sgml/html5/html5.go

* `Render` (12-14): (Render: the choice of templates)

## pkg/renderer/sgml/html5/templates.go

* `Templates` (8-10): Templates

## pkg/renderer/sgml/html_escape.go

* `escapeString` (10-12): Escape
* `unescapeString` (14-16): (Render: part of the definition of the caller)

## pkg/renderer/sgml/icon.go

* `sgmlRenderer.renderInlineIcon` (13-36): Render, Templates
* `sgmlRenderer.renderIcon` (46-117): Render
* `renderIconPath` (119-127): Render

## pkg/renderer/sgml/image.go

* `sgmlRenderer.renderImageBlock` (16-76): Captions, Render, Templates
* `sgmlRenderer.renderInlineImage` (78-110): Render
* `sgmlRenderer.getImageSrc` (112-132): Render
* `sgmlRenderer.renderImageAlt` (134-148): Render

## pkg/renderer/sgml/index_term.go

* `sgmlRenderer.renderIndexTerm` (7-9): (Render: part of the definition of the caller)
* `sgmlRenderer.renderConcealedIndexTerm` (11-13): (Render: part of the definition of the caller)

## pkg/renderer/sgml/inline_button.go

* `sgmlRenderer.renderInlineButton` (10-20): Render

## pkg/renderer/sgml/inline_elements.go

* `sgmlRenderer.renderInlineElements` (9-35): Render

## pkg/renderer/sgml/inline_menu.go

* `sgmlRenderer.renderInlineMenu` (7-13): Render

## pkg/renderer/sgml/link.go

* `sgmlRenderer.renderLink` (10-56): Render

## pkg/renderer/sgml/list.go

* `sgmlRenderer.renderList` (13-26): Render
* `sgmlRenderer.renderOrderedList` (31-75): Render
* `getNumberingStyle` (77-86): Render
* `sgmlRenderer.numberingType` (89-102): Render
* `sgmlRenderer.renderOrderedListElement` (104-123): Render
* `sgmlRenderer.renderUnorderedList` (128-174): Render
* `sgmlRenderer.renderUnorderedListElement` (175-194): Render
* `sgmlRenderer.renderLabeledList` (199-243): Render
* `sgmlRenderer.getLabeledListTmpl` (245-281): (Render: part of the definition of the caller)
* `sgmlRenderer.renderLabeledListItem` (283-305): Render
* `sgmlRenderer.renderCalloutList` (310-346): Render
* `sgmlRenderer.renderCalloutListElement` (348-362): Render

## pkg/renderer/sgml/literal_blocks.go

* `sgmlRenderer.renderLiteralBlock` (11-39): Render

## pkg/renderer/sgml/paragraph.go

* `sgmlRenderer.renderParagraph` (11-39): Render, Templates
* `sgmlRenderer.renderRegularParagraph` (41-68): Render, Templates
* `sgmlRenderer.renderManpageNameParagraph` (70-83): Render
* `sgmlRenderer.renderEmbeddedParagraph` (85-101): Render
* `trimSpaces` (104-115): Elements
* `renderCheckStyle` (117-131): Render
* `sgmlRenderer.renderElementTitle` (133-147): Render
* `sgmlRenderer.renderParagraphElements` (149-174): Render

## pkg/renderer/sgml/passthrough.go

* `sgmlRenderer.renderPassthroughParagraph` (11-17): Render
* `sgmlRenderer.renderInlinePassthrough` (19-33): Render
* `sgmlRenderer.renderPassthroughContent` (36-59): Render

## pkg/renderer/sgml/preamble.go

* `sgmlRenderer.renderPreamble` (8-32): Render, Templates

## pkg/renderer/sgml/predefined_attribute.go

* `sgmlRenderer.renderPredefinedAttribute` (7-9): Render

## pkg/renderer/sgml/quoted_text.go

* `sgmlRenderer.renderQuotedText` (13-64): Actions, Render

## pkg/renderer/sgml/render_plain_text.go

* `RenderPlainText` (14-22): (Render: part of the definition of the caller)
* `WithoutEscape` (26-30): (Render: part of the definition of the caller)
* `RenderParagraphElements` (32-46): Render
* `plaintextRenderer.render` (52-82): Elements, Render
* `plaintextRenderer.renderInlineElements` (84-107): Render
* `plaintextRenderer.renderInlinePassthrough` (109-111): (Render: part of the definition of the caller)
* `plaintextRenderer.renderSymbol` (113-118): (Render: part of the definition of the caller)
* `plaintextRenderer.renderInlineLink` (120-129): (Render: part of the definition of the caller)
* `plaintextRenderer.renderFootnoteReference` (131-137): (Render: part of the definition of the caller)

## pkg/renderer/sgml/section.go

* `sgmlRenderer.renderSection` (12-44): Render
* `sgmlRenderer.renderSectionTitle` (46-71): Numbers, Render

## pkg/renderer/sgml/sgml.go

* `Render` (18-140): Config, Output, Render, Template, Validator
* `predefinedAttribute` (174-177): Render
* `halign` (179-190): Template
* `valign` (192-203): Template
* `lastInStrings` (205-207): (Render: part of the definition of the caller)
* `trimLineFeedSuffix` (209-211): (Render: part of the definition of the caller)
* `sgmlRenderer.splitAndRender` (216-223): Render, Validator
* `sgmlRenderer.splitAndRenderForArticle` (227-240): Render
* `sgmlRenderer.splitAndRenderForManpage` (244-273): Render, Validator
* `sgmlRenderer.renderDocumentRoles` (275-280): Render, Validator
* `sgmlRenderer.renderDocumentID` (282-290): Render
* `sgmlRenderer.renderAuthors` (292-304): Render
* `sgmlRenderer.renderDocumentTitle` (309-319): Render
* `sgmlRenderer.renderDocumentHeader` (321-340): Render
* `sgmlRenderer.renderDocumentHeaderTitle` (342-348): Render
* `sgmlRenderer.renderManpageHeader` (350-387): Render
* `sgmlRenderer.renderDocumentBody` (391-433): Render
* `lookupPreamble` (435-442): Render

## pkg/renderer/sgml/sgml_renderer.go

* `sgmlRenderer.execute` (244-254): Render, Template
* `sgmlRenderer.newTemplate` (256-271): (Templates (generated by tools/tmpl2lean.py); the accessor parses the text of the template once)
* `sgmlRenderer.admonitionBlock` (273-279): (Templates (generated by tools/tmpl2lean.py); the accessor parses the text of the template once)
* `sgmlRenderer.admonitionParagraph` (281-287): (Templates (generated by tools/tmpl2lean.py); the accessor parses the text of the template once)
* `sgmlRenderer.article` (289-295): (Templates (generated by tools/tmpl2lean.py); the accessor parses the text of the template once)
* `sgmlRenderer.articleHeader` (297-303): (Templates (generated by tools/tmpl2lean.py); the accessor parses the text of the template once)
* `sgmlRenderer.blockImage` (305-311): (Templates (generated by tools/tmpl2lean.py); the accessor parses the text of the template once)
* `sgmlRenderer.boldText` (313-319): (Templates (generated by tools/tmpl2lean.py); the accessor parses the text of the template once)
* `sgmlRenderer.calloutList` (321-327): (Templates (generated by tools/tmpl2lean.py); the accessor parses the text of the template once)
* `sgmlRenderer.calloutListElement` (329-335): (Templates (generated by tools/tmpl2lean.py); the accessor parses the text of the template once)
* `sgmlRenderer.calloutRef` (337-343): (Templates (generated by tools/tmpl2lean.py); the accessor parses the text of the template once)
* `sgmlRenderer.embeddedParagraph` (345-351): (Templates (generated by tools/tmpl2lean.py); the accessor parses the text of the template once)
* `sgmlRenderer.documentDetails` (353-359): (Templates (generated by tools/tmpl2lean.py); the accessor parses the text of the template once)
* `sgmlRenderer.documentAuthorDetails` (361-367): (Templates (generated by tools/tmpl2lean.py); the accessor parses the text of the template once)
* `sgmlRenderer.exampleBlock` (369-375): (Templates (generated by tools/tmpl2lean.py); the accessor parses the text of the template once)
* `sgmlRenderer.externalCrossReference` (377-383): (Templates (generated by tools/tmpl2lean.py); the accessor parses the text of the template once)
* `sgmlRenderer.fencedBlock` (385-391): (Templates (generated by tools/tmpl2lean.py); the accessor parses the text of the template once)
* `sgmlRenderer.footnote` (393-399): (Templates (generated by tools/tmpl2lean.py); the accessor parses the text of the template once)
* `sgmlRenderer.footnoteElement` (401-407): (Templates (generated by tools/tmpl2lean.py); the accessor parses the text of the template once)
* `sgmlRenderer.footnoteRef` (409-415): (Templates (generated by tools/tmpl2lean.py); the accessor parses the text of the template once)
* `sgmlRenderer.footnotes` (417-423): (Templates (generated by tools/tmpl2lean.py); the accessor parses the text of the template once)
* `sgmlRenderer.iconFont` (425-431): (Templates (generated by tools/tmpl2lean.py); the accessor parses the text of the template once)
* `sgmlRenderer.iconImage` (433-439): (Templates (generated by tools/tmpl2lean.py); the accessor parses the text of the template once)
* `sgmlRenderer.iconText` (441-447): (Templates (generated by tools/tmpl2lean.py); the accessor parses the text of the template once)
* `sgmlRenderer.inlineButton` (449-455): (Templates (generated by tools/tmpl2lean.py); the accessor parses the text of the template once)
* `sgmlRenderer.inlineIcon` (457-463): (Templates (generated by tools/tmpl2lean.py); the accessor parses the text of the template once)
* `sgmlRenderer.inlineImage` (465-471): (Templates (generated by tools/tmpl2lean.py); the accessor parses the text of the template once)
* `sgmlRenderer.inlineMenu` (473-479): (Templates (generated by tools/tmpl2lean.py); the accessor parses the text of the template once)
* `sgmlRenderer.internalCrossReference` (481-487): (Templates (generated by tools/tmpl2lean.py); the accessor parses the text of the template once)
* `sgmlRenderer.invalidFootnote` (489-495): (Templates (generated by tools/tmpl2lean.py); the accessor parses the text of the template once)
* `sgmlRenderer.italicText` (497-503): (Templates (generated by tools/tmpl2lean.py); the accessor parses the text of the template once)
* `sgmlRenderer.labeledList` (505-511): (Templates (generated by tools/tmpl2lean.py); the accessor parses the text of the template once)
* `sgmlRenderer.labeledListElement` (513-519): (Templates (generated by tools/tmpl2lean.py); the accessor parses the text of the template once)
* `sgmlRenderer.labeledListHorizontal` (521-527): (Templates (generated by tools/tmpl2lean.py); the accessor parses the text of the template once)
* `sgmlRenderer.labeledListHorizontalElement` (529-535): (Templates (generated by tools/tmpl2lean.py); the accessor parses the text of the template once)
* `sgmlRenderer.lineBreak` (537-543): (Templates (generated by tools/tmpl2lean.py); the accessor parses the text of the template once)
* `sgmlRenderer.link` (545-551): (Templates (generated by tools/tmpl2lean.py); the accessor parses the text of the template once)
* `sgmlRenderer.listingBlock` (553-559): (Templates (generated by tools/tmpl2lean.py); the accessor parses the text of the template once)
* `sgmlRenderer.literalBlock` (561-567): (Templates (generated by tools/tmpl2lean.py); the accessor parses the text of the template once)
* `sgmlRenderer.manpageHeader` (569-575): (Templates (generated by tools/tmpl2lean.py); the accessor parses the text of the template once)
* `sgmlRenderer.manpageNameParagraph` (577-583): (Templates (generated by tools/tmpl2lean.py); the accessor parses the text of the template once)
* `sgmlRenderer.markdownQuoteBlock` (585-591): (Templates (generated by tools/tmpl2lean.py); the accessor parses the text of the template once)
* `sgmlRenderer.markedText` (593-599): (Templates (generated by tools/tmpl2lean.py); the accessor parses the text of the template once)
* `sgmlRenderer.monospaceText` (601-607): (Templates (generated by tools/tmpl2lean.py); the accessor parses the text of the template once)
* `sgmlRenderer.openBlock` (609-615): (Templates (generated by tools/tmpl2lean.py); the accessor parses the text of the template once)
* `sgmlRenderer.orderedList` (617-623): (Templates (generated by tools/tmpl2lean.py); the accessor parses the text of the template once)
* `sgmlRenderer.orderedListElement` (625-631): (Templates (generated by tools/tmpl2lean.py); the accessor parses the text of the template once)
* `sgmlRenderer.paragraph` (633-639): (Templates (generated by tools/tmpl2lean.py); the accessor parses the text of the template once)
* `sgmlRenderer.passthroughBlock` (641-647): (Templates (generated by tools/tmpl2lean.py); the accessor parses the text of the template once)
* `sgmlRenderer.preamble` (649-655): (Templates (generated by tools/tmpl2lean.py); the accessor parses the text of the template once)
* `sgmlRenderer.qAndAList` (657-663): (Templates (generated by tools/tmpl2lean.py); the accessor parses the text of the template once)
* `sgmlRenderer.qAndAListElement` (665-671): (Templates (generated by tools/tmpl2lean.py); the accessor parses the text of the template once)
* `sgmlRenderer.quoteBlock` (673-679): (Templates (generated by tools/tmpl2lean.py); the accessor parses the text of the template once)
* `sgmlRenderer.quoteParagraph` (681-687): (Templates (generated by tools/tmpl2lean.py); the accessor parses the text of the template once)
* `sgmlRenderer.sectionContent` (689-695): (Templates (generated by tools/tmpl2lean.py); the accessor parses the text of the template once)
* `sgmlRenderer.sectionTitle` (697-703): (Templates (generated by tools/tmpl2lean.py); the accessor parses the text of the template once)
* `sgmlRenderer.sidebarBlock` (705-711): (Templates (generated by tools/tmpl2lean.py); the accessor parses the text of the template once)
* `sgmlRenderer.sourceBlock` (713-719): (Templates (generated by tools/tmpl2lean.py); the accessor parses the text of the template once)
* `sgmlRenderer.subscriptText` (721-727): (Templates (generated by tools/tmpl2lean.py); the accessor parses the text of the template once)
* `sgmlRenderer.superscriptText` (729-735): (Templates (generated by tools/tmpl2lean.py); the accessor parses the text of the template once)
* `sgmlRenderer.table` (737-743): (Templates (generated by tools/tmpl2lean.py); the accessor parses the text of the template once)
* `sgmlRenderer.tableBody` (745-751): (Templates (generated by tools/tmpl2lean.py); the accessor parses the text of the template once)
* `sgmlRenderer.tableCell` (753-759): (Templates (generated by tools/tmpl2lean.py); the accessor parses the text of the template once)
* `sgmlRenderer.tableCellBlock` (761-767): (Templates (generated by tools/tmpl2lean.py); the accessor parses the text of the template once)
* `sgmlRenderer.tableHeader` (769-775): (Templates (generated by tools/tmpl2lean.py); the accessor parses the text of the template once)
* `sgmlRenderer.tableHeaderCell` (777-783): (Templates (generated by tools/tmpl2lean.py); the accessor parses the text of the template once)
* `sgmlRenderer.tableFooter` (785-791): (Templates (generated by tools/tmpl2lean.py); the accessor parses the text of the template once)
* `sgmlRenderer.tableFooterCell` (793-799): (Templates (generated by tools/tmpl2lean.py); the accessor parses the text of the template once)
* `sgmlRenderer.tableRow` (801-807): (Templates (generated by tools/tmpl2lean.py); the accessor parses the text of the template once)
* `sgmlRenderer.thematicBreak` (809-815): (Templates (generated by tools/tmpl2lean.py); the accessor parses the text of the template once)
* `sgmlRenderer.tocEntry` (817-823): (Templates (generated by tools/tmpl2lean.py); the accessor parses the text of the template once)
* `sgmlRenderer.tocRoot` (825-831): (Templates (generated by tools/tmpl2lean.py); the accessor parses the text of the template once)
* `sgmlRenderer.tocSection` (833-839): (Templates (generated by tools/tmpl2lean.py); the accessor parses the text of the template once)
* `sgmlRenderer.unorderedList` (841-847): (Templates (generated by tools/tmpl2lean.py); the accessor parses the text of the template once)
* `sgmlRenderer.unorderedListElement` (849-855): (Templates (generated by tools/tmpl2lean.py); the accessor parses the text of the template once)
* `sgmlRenderer.verseBlock` (857-863): (Templates (generated by tools/tmpl2lean.py); the accessor parses the text of the template once)
* `sgmlRenderer.verseParagraph` (865-871): (Templates (generated by tools/tmpl2lean.py); the accessor parses the text of the template once)

## pkg/renderer/sgml/special_character.go

* `sgmlRenderer.renderSpecialCharacter` (9-20): Render

## pkg/renderer/sgml/string.go

* `sgmlRenderer.renderStringElement` (11-20): Escape, Render
* `asciiEntify` (22-36): Escape

## pkg/renderer/sgml/symbol.go

* `sgmlRenderer.renderSymbol` (27-35): Render

## pkg/renderer/sgml/table.go

* `sgmlRenderer.renderTable` (13-121): Captions, Render, Table, Templates
* `sgmlRenderer.renderTableHeader` (123-142): Render, Table
* `sgmlRenderer.renderTableHeaderCell` (144-164): Render
* `sgmlRenderer.renderTableFooter` (166-189): Render, Table
* `sgmlRenderer.renderTableFooterCell` (191-211): Render
* `sgmlRenderer.renderTableBody` (213-233): (Render: part of the definition of the caller)
* `sgmlRenderer.renderTableRow` (235-253): Render, Table
* `sgmlRenderer.renderTableCell` (255-281): Render
* `sgmlRenderer.renderTableCellBlock` (283-326): Render

## pkg/renderer/sgml/table_of_contents.go

* `sgmlRenderer.prerenderTableOfContents` (12-27): Render, Templates
* `sgmlRenderer.prerenderTableOfContentsSections` (29-37): Render
* `sgmlRenderer.prerenderTableOfContentsEntry` (39-65): Numbers, Render
* `sgmlRenderer.renderTableOfContents` (67-95): Render
* `sgmlRenderer.renderTableOfContentsTitle` (97-112): Render
* `sgmlRenderer.renderTableOfContentsSections` (114-133): Render
* `sgmlRenderer.renderTableOfContentsEntry` (135-151): Render

## pkg/renderer/sgml/user_macro.go

* `sgmlRenderer.renderUserMacro` (9-28): Render

## pkg/renderer/sgml/xhtml5/xhtml5.go

* `Render` (13-33): Templates

## pkg/types/attributes.go

* `NewAttributes` (188-207): Attributes
* `Attributes.Clone` (209-215): (part of the callers (Attributes, Elements))
* `MergeAttributes` (216-232): Attributes
* `Attributes.AddAll` (235-246): Attributes, Substitute
* `toAttributesWithMapping` (248-281): Attributes
* `HasAttributeWithValue` (284-304): (part of the callers (Attributes, Elements))
* `HasNotAttribute` (307-321): (part of the callers (Attributes, Elements))
* `NewPositionalAttribute` (331-337): (a constructor of Elements; that the grammar calls it with these arguments is an assumption on the code of the actions wherever Actions does not give it)
* `PositionalAttribute.Key` (340-342): Attributes
* `NewOptionAttribute` (347-356): Attributes
* `NewNamedAttribute` (359-369): Attributes
* `NewTitleAttribute` (372-374): Attributes
* `NewRoleAttribute` (377-379): Attributes
* `NewIDAttribute` (384-386): Attributes
* `Attributes.Set` (391-440): Attributes, Config
* `Attributes.Unset` (442-444): Config
* `Attributes.SetAll` (447-471): Attributes
* `Attributes.Has` (474-477): Elements
* `Attributes.HasOption` (480-494): Attributes, Elements, Substitute
* `Attributes.GetAsString` (498-504): Captions, Elements, Substitute
* `Attributes.GetAsIntWithDefault` (508-518): Ids
* `Attributes.GetAsBoolWithDefault` (522-532): Elements
* `Attributes.GetAsStringWithDefault` (536-548): Elements, Ids, Substitute

## pkg/types/non_alphanumerics_replacement.go

* `ReplaceNonAlphanumerics` (10-26): Ids
* `replaceNonAlphanumericsOnElements` (28-62): Aggregate, Ids
* `replaceNonAlphanumerics` (64-80): Ids

## pkg/types/predefined_attributes.go

* `isPrefedinedAttribute` (37-44): (Values, Render: table of predefined attributes)

## pkg/types/types.go

* `NewDocumentFragment` (73-78): (a constructor of Elements; that the grammar calls it with these arguments is an assumption on the code of the actions wherever Actions does not give it)
* `NewErrorFragment` (80-85): (a constructor of Elements; that the grammar calls it with these arguments is an assumption on the code of the actions wherever Actions does not give it)
* `Document.FrontMatter` (101-106): Aggregate, Lists
* `Document.Header` (111-126): Aggregate, Elements, Numbers, Substitute, Validator
* `Document.BodyElements` (129-142): Aggregate, Elements, Substitute, Validator
* `Document.AddElement` (146-149): Aggregate, Include, Substitute
* `Document.SectionNumbers` (153-164): Elements, Include, Numbers, Substitute
* `traverseElements` (166-198): Elements, Include, Lists, Numbers, Substitute
* `NewTableOfContents` (213-218): Aggregate, Include, Substitute
* `TableOfContents.Add` (236-268): Aggregate, Substitute
* `NewDocumentHeader` (289-317): Actions, Substitute
* `DocumentHeader.Authors` (319-354): Render, Substitute
* `DocumentHeader.Revision` (356-365): Render, Substitute
* `DocumentHeader.IsEmpty` (369-373): Filter
* `DocumentHeader.GetTitle` (377-379): (a field of the element, or a function on it, in Elements or in the model of its caller)
* `DocumentHeader.SetTitle` (381-383): Substitute
* `DocumentHeader.GetElements` (387-389): (a field of the element, or a function on it, in Elements or in the model of its caller)
* `DocumentHeader.SetElements` (391-394): (a field of the element, or a function on it, in Elements or in the model of its caller)
* `DocumentHeader.GetAttributes` (396-398): (a field of the element, or a function on it, in Elements or in the model of its caller)
* `DocumentHeader.AddAttributes` (401-403): (a field of the element, or a function on it, in Elements or in the model of its caller)
* `DocumentHeader.SetAttributes` (406-408): (a field of the element, or a function on it, in Elements or in the model of its caller)
* `NewDocumentAuthorsAndRevision` (415-423): Actions, Substitute
* `NewDocumentAuthors` (432-444): Actions, Substitute
* `DocumentAuthors.Expand` (448-469): Render, Substitute
* `key` (471-476): Render
* `initial` (478-483): Render
* `NewDocumentAuthor` (492-501): Actions
* `NewDocumentAuthorFullName` (509-525): Actions, Substitute
* `DocumentAuthorFullName.FullName` (527-539): Render, Substitute
* `DocumentAuthorFullName.Initials` (541-547): (a field of the element, or a function on it, in Elements or in the model of its caller)
* `NewDocumentRevision` (561-596): Actions, AttrRefs, Substitute
* `DocumentRevision.Expand` (600-614): Render
* `NewAttributeDeclaration` (628-637): Actions
* `AttributeDeclaration.RawText` (639-641): Actions
* `NewAttributeReset` (650-656): Actions
* `AttributeReset.RawText` (658-660): Actions
* `NewAttributeReference` (669-680): Actions
* `NewCounterSubstitution` (696-706): Actions, AttrRefs
* `Preamble.HasContent` (720-730): Aggregate
* `NewYamlFrontMatter` (742-754): **not modelled**
* `addToListElement` (770-790): Actions, Lists
* `List.GetAttributes` (801-803): Lists
* `List.AddAttributes` (806-808): Lists
* `List.SetAttributes` (811-813): Lists
* `List.GetElements` (815-821): Lists
* `List.SetElements` (823-826): Lists
* `List.CanAddElement` (829-840): Lists
* `List.AddElement` (845-864): Lists
* `List.Reference` (868-880): Ids, Lists, Targets
* `List.LastElement` (882-887): Lists
* `NewListElements` (893-939): Actions, Lists
* `ListElements.GetAttributes` (943-945): Lists
* `ListElements.AddAttributes` (947-954): Lists
* `ListElements.SetAttributes` (956-958): Lists
* `ListElements.GetElements` (961-963): Lists
* `ListElements.SetElements` (966-969): Lists
* `ListElements.SubstituteFootnotes` (975-984): Footnotes, Lists
* `NewList` (995-1013): Elements, Lists
* `NewListContinuation` (1020-1025): Lists, Substitute
* `ListContinuation.AddElement` (1029-1034): Lists
* `NewCallout` (1046-1050): Lists
* `NewCalloutListElement` (1064-1072): Lists
* `CalloutListElement.Reference` (1076-1088): Lists, Targets
* `CalloutListElement.matchesStyle` (1091-1094): Lists
* `CalloutListElement.AdjustStyle` (1096-1098): Lists
* `CalloutListElement.ListKind` (1101-1103): Lists
* `CalloutListElement.GetAttributes` (1106-1108): Lists
* `CalloutListElement.AddAttributes` (1111-1113): Lists
* `CalloutListElement.SetAttributes` (1116-1118): Lists
* `CalloutListElement.AddElement` (1123-1125): Lists
* `CalloutListElement.GetElements` (1128-1130): Lists
* `CalloutListElement.LastElement` (1132-1137): Lists
* `CalloutListElement.SetElements` (1140-1143): Lists
* `CalloutListElement.SubstituteFootnotes` (1149-1155): Footnotes, Lists
* `NewOrderedListElement` (1185-1193): Actions, Lists
* `OrderedListElement.Reference` (1197-1209): Lists, Targets
* `OrderedListElement.matchesStyle` (1212-1217): Lists
* `OrderedListElement.AdjustStyle` (1219-1221): Lists
* `OrderedListElement.ListKind` (1224-1226): Lists
* `OrderedListElement.GetElements` (1229-1231): Lists
* `OrderedListElement.LastElement` (1233-1238): Lists
* `OrderedListElement.SetElements` (1241-1244): Lists
* `OrderedListElement.AddElement` (1249-1251): Lists
* `OrderedListElement.GetAttributes` (1256-1258): Lists
* `OrderedListElement.AddAttributes` (1261-1264): Lists
* `OrderedListElement.SetAttributes` (1267-1270): Lists
* `OrderedListElement.mapAttributes` (1272-1276): Attributes, Lists
* `OrderedListElement.SubstituteFootnotes` (1282-1288): Footnotes, Lists
* `NewOrderedListElementPrefix` (1296-1300): Lists
* `NewUnorderedListElement` (1317-1335): Actions, Lists
* `UnorderedListElement.Reference` (1339-1351): Lists, Targets
* `UnorderedListElement.matchesStyle` (1354-1360): Lists
* `UnorderedListElement.AdjustStyle` (1362-1374): Lists
* `UnorderedListElement.ListKind` (1377-1379): Lists
* `UnorderedListElement.interactive` (1381-1392): Lists
* `UnorderedListElement.AddElement` (1397-1399): Lists
* `UnorderedListElement.GetElements` (1402-1404): Lists
* `UnorderedListElement.LastElement` (1406-1411): Lists
* `UnorderedListElement.SetElements` (1414-1417): Lists
* `UnorderedListElement.GetAttributes` (1422-1424): Lists
* `UnorderedListElement.AddAttributes` (1427-1430): Lists
* `UnorderedListElement.SetAttributes` (1433-1436): Lists
* `UnorderedListElement.mapAttributes` (1438-1442): Attributes, Lists
* `UnorderedListElement.SubstituteFootnotes` (1448-1454): Footnotes, Lists
* `UnorderedListElementCheckStyle.interactive` (1472-1481): Lists
* `toCheckStyle` (1483-1488): Lists
* `UnorderedListElementBulletStyle.next` (1493-1506): Lists
* `NewUnorderedListElementBulletStyle` (1523-1540): Actions
* `NewUnorderedListElementPrefix` (1548-1556): (a constructor of Elements; that the grammar calls it with these arguments is an assumption on the code of the actions wherever Actions does not give it)
* `toLabeledListElementStyle` (1570-1581): (a constructor of Elements; that the grammar calls it with these arguments is an assumption on the code of the actions wherever Actions does not give it)
* `NewLabeledListElement` (1592-1612): (a constructor of Elements; that the grammar calls it with these arguments is an assumption on the code of the actions wherever Actions does not give it)
* `LabeledListElement.Reference` (1616-1636): Targets
* `LabeledListElement.matchesStyle` (1642-1647): Lists
* `LabeledListElement.AdjustStyle` (1649-1651): Lists
* `LabeledListElement.ListKind` (1654-1656): (a field of the element, or a function on it, in Elements or in the model of its caller)
* `LabeledListElement.AddElement` (1661-1663): (a field of the element, or a function on it, in Elements or in the model of its caller)
* `LabeledListElement.GetElements` (1666-1668): (a field of the element, or a function on it, in Elements or in the model of its caller)
* `LabeledListElement.LastElement` (1670-1675): (a field of the element, or a function on it, in Elements or in the model of its caller)
* `LabeledListElement.SetElements` (1678-1681): (a field of the element, or a function on it, in Elements or in the model of its caller)
* `LabeledListElement.GetAttributes` (1686-1688): (a field of the element, or a function on it, in Elements or in the model of its caller)
* `LabeledListElement.AddAttributes` (1691-1694): (a field of the element, or a function on it, in Elements or in the model of its caller)
* `LabeledListElement.SetAttributes` (1697-1700): (a field of the element, or a function on it, in Elements or in the model of its caller)
* `LabeledListElement.mapAttributes` (1702-1706): Attributes
* `LabeledListElement.SubstituteFootnotes` (1712-1723): Footnotes
* `NewParagraph` (1736-1753): Actions, Substitute
* `Paragraph.GetElements` (1758-1760): (a field of the element, or a function on it, in Elements or in the model of its caller)
* `Paragraph.SetElements` (1763-1766): (a field of the element, or a function on it, in Elements or in the model of its caller)
* `Paragraph.AddElement` (1770-1776): Actions
* `Paragraph.GetAttributes` (1781-1783): (a field of the element, or a function on it, in Elements or in the model of its caller)
* `Paragraph.AddAttributes` (1786-1789): (a field of the element, or a function on it, in Elements or in the model of its caller)
* `Paragraph.SetAttributes` (1792-1795): (a field of the element, or a function on it, in Elements or in the model of its caller)
* `Paragraph.mapAttributes` (1797-1812): Attributes
* `Paragraph.Reference` (1816-1822): Ids, Targets
* `Paragraph.SubstituteFootnotes` (1828-1834): Footnotes
* `NewInlineElements` (1859-1870): Actions
* `NewInternalCrossReference` (1883-1889): Actions, Ids
* `InternalCrossReference.ResolveID` (1891-1915): Ids
* `NewExternalCrossReference` (1924-1933): Attributes
* `ExternalCrossReference.GetLocation` (1937-1939): (a field of the element, or a function on it, in Elements or in the model of its caller)
* `ExternalCrossReference.GetAttributes` (1942-1944): (a field of the element, or a function on it, in Elements or in the model of its caller)
* `ExternalCrossReference.AddAttributes` (1947-1949): (a field of the element, or a function on it, in Elements or in the model of its caller)
* `ExternalCrossReference.SetAttributes` (1952-1954): (a field of the element, or a function on it, in Elements or in the model of its caller)
* `NewInlineButton` (1966-1974): Attributes
* `NewInlineMenu` (1986-1997): (a constructor of Elements; that the grammar calls it with these arguments is an assumption on the code of the actions wherever Actions does not give it)
* `NewImageBlock` (2010-2023): Attributes
* `ImageBlock.GetAttributes` (2028-2030): (a field of the element, or a function on it, in Elements or in the model of its caller)
* `ImageBlock.AddAttributes` (2033-2035): Attributes
* `ImageBlock.SetAttributes` (2038-2040): (a field of the element, or a function on it, in Elements or in the model of its caller)
* `ImageBlock.GetLocation` (2044-2046): (a field of the element, or a function on it, in Elements or in the model of its caller)
* `ImageBlock.Reference` (2050-2056): Targets
* `NewInlineImage` (2065-2075): Attributes
* `InlineImage.GetAttributes` (2080-2082): (a field of the element, or a function on it, in Elements or in the model of its caller)
* `InlineImage.AddAttributes` (2085-2087): (a field of the element, or a function on it, in Elements or in the model of its caller)
* `InlineImage.SetAttributes` (2090-2092): (a field of the element, or a function on it, in Elements or in the model of its caller)
* `InlineImage.GetLocation` (2096-2098): (a field of the element, or a function on it, in Elements or in the model of its caller)
* `NewIcon` (2111-2119): Attributes
* `NewFootnote` (2139-2153): Footnotes
* `NewFootnotes` (2177-2182): Footnotes
* `Footnotes.indexOf` (2185-2192): Footnotes
* `Footnotes.Reference` (2200-2218): Footnotes
* `sequence.nextVal` (2224-2227): Footnotes
* `NewBlockDelimiter` (2274-2280): RawLine
* `NewMarkdownCodeBlockDelimiter` (2282-2292): RawLine
* `BlockDelimiter.RawText` (2294-2296): RawLine
* `NewDelimitedBlock` (2305-2316): Actions
* `DelimitedBlock.GetElements` (2321-2323): (a field of the element, or a function on it, in Elements or in the model of its caller)
* `DelimitedBlock.SetElements` (2326-2351): (a field of the element, or a function on it, in Elements or in the model of its caller)
* `DelimitedBlock.GetAttributes` (2356-2358): (a field of the element, or a function on it, in Elements or in the model of its caller)
* `DelimitedBlock.AddAttributes` (2361-2364): (a field of the element, or a function on it, in Elements or in the model of its caller)
* `DelimitedBlock.SetAttributes` (2367-2370): (a field of the element, or a function on it, in Elements or in the model of its caller)
* `DelimitedBlock.mapAttributes` (2372-2395): Attributes
* `DelimitedBlock.Reference` (2399-2411): Ids, Targets
* `NewRawSection` (2423-2428): (a constructor of Elements; that the grammar calls it with these arguments is an assumption on the code of the actions wherever Actions does not give it)
* `RawSection.OffsetLevel` (2430-2433): Preprocess
* `RawSection.Stringify` (2435-2437): (a field of the element, or a function on it, in Elements or in the model of its caller)
* `NewSection` (2448-2455): Actions
* `Section.GetID` (2457-2460): (a field of the element, or a function on it, in Elements or in the model of its caller)
* `Section.GetElements` (2465-2467): (a field of the element, or a function on it, in Elements or in the model of its caller)
* `Section.SetElements` (2470-2473): (a field of the element, or a function on it, in Elements or in the model of its caller)
* `Section.GetTitle` (2478-2480): (a field of the element, or a function on it, in Elements or in the model of its caller)
* `Section.SetTitle` (2483-2497): Substitute
* `Section.GetAttributes` (2500-2502): (a field of the element, or a function on it, in Elements or in the model of its caller)
* `Section.AddAttributes` (2505-2511): Substitute
* `Section.SetAttributes` (2514-2520): (a field of the element, or a function on it, in Elements or in the model of its caller)
* `Section.ResolveID` (2523-2542): Ids, Targets
* `Section.resolveID` (2545-2563): Ids, Targets
* `Section.Reference` (2567-2572): Ids, Targets
* `Section.AddElement` (2577-2580): (a field of the element, or a function on it, in Elements or in the model of its caller)
* `Section.SubstituteFootnotes` (2586-2592): Footnotes
* `NewThematicBreak` (2611-2613): (a constructor of Elements; that the grammar calls it with these arguments is an assumption on the code of the actions wherever Actions does not give it)
* `NewUserMacroBlock` (2639-2647): (a constructor of Elements; that the grammar calls it with these arguments is an assumption on the code of the actions wherever Actions does not give it)
* `NewInlineUserMacro` (2650-2658): (a constructor of Elements; that the grammar calls it with these arguments is an assumption on the code of the actions wherever Actions does not give it)
* `NewBlankLine` (2669-2671): (a constructor of Elements; that the grammar calls it with these arguments is an assumption on the code of the actions wherever Actions does not give it)
* `NewSinglelineComment` (2683-2688): (a constructor of Elements; that the grammar calls it with these arguments is an assumption on the code of the actions wherever Actions does not give it)
* `NewStringElement` (2700-2704): (a constructor of Elements; that the grammar calls it with these arguments is an assumption on the code of the actions wherever Actions does not give it)
* `StringElement.RawText` (2707-2709): (a field of the element, or a function on it, in Elements or in the model of its caller)
* `NewLineBreak` (2719-2721): (a constructor of Elements; that the grammar calls it with these arguments is an assumption on the code of the actions wherever Actions does not give it)
* `NewQuotedText` (2761-2769): Actions, Elements
* `QuotedText.GetElements` (2774-2776): (a field of the element, or a function on it, in Elements or in the model of its caller)
* `QuotedText.SetElements` (2779-2782): (a field of the element, or a function on it, in Elements or in the model of its caller)
* `QuotedText.GetAttributes` (2787-2789): (a field of the element, or a function on it, in Elements or in the model of its caller)
* `QuotedText.AddAttributes` (2792-2794): (a field of the element, or a function on it, in Elements or in the model of its caller)
* `QuotedText.SetAttributes` (2797-2799): (a field of the element, or a function on it, in Elements or in the model of its caller)
* `QuotedText.WithAttributes` (2802-2808): Actions, Attributes
* `NewEscapedQuotedText` (2815-2836): (a constructor of Elements; that the grammar calls it with these arguments is an assumption on the code of the actions wherever Actions does not give it)
* `NewInlinePassthrough` (2861-2866): (a constructor of Elements; that the grammar calls it with these arguments is an assumption on the code of the actions wherever Actions does not give it)
* `NewInlineLink` (2879-2892): Attributes
* `NewInlineAnchor` (2895-2901): (a constructor of Elements; that the grammar calls it with these arguments is an assumption on the code of the actions wherever Actions does not give it)
* `NewEmailAddressLink` (2904-2911): (a constructor of Elements; that the grammar calls it with these arguments is an assumption on the code of the actions wherever Actions does not give it)
* `InlineLink.GetAttributes` (2916-2918): (a field of the element, or a function on it, in Elements or in the model of its caller)
* `InlineLink.AddAttributes` (2921-2923): (a field of the element, or a function on it, in Elements or in the model of its caller)
* `InlineLink.SetAttributes` (2926-2928): (a field of the element, or a function on it, in Elements or in the model of its caller)
* `InlineLink.GetLocation` (2932-2934): (a field of the element, or a function on it, in Elements or in the model of its caller)
* `NewIfdefCondition` (2950-2959): Preprocess
* `IfdefCondition.Eval` (2963-2969): Preprocess
* `IfdefCondition.SingleLineContent` (2971-2973): Preprocess
* `NewIfndefCondition` (2980-2989): Preprocess
* `IfndefCondition.Eval` (2993-2996): Preprocess
* `IfndefCondition.SingleLineContent` (2998-3000): Preprocess
* `NewIfevalCondition` (3008-3017): Preprocess
* `IfevalCondition.Eval` (3021-3023): Preprocess
* `IfevalCondition.left` (3025-3032): Preprocess
* `IfevalCondition.right` (3034-3041): Preprocess
* `IfevalCondition.SingleLineContent` (3043-3045): Preprocess
* `NewEqualOperand` (3074-3076): Preprocess
* `NewNotEqualOperand` (3103-3105): Preprocess
* `NewLessThanOperand` (3132-3134): Preprocess
* `NewLessOrEqualOperand` (3161-3163): Preprocess
* `NewGreaterThanOperand` (3190-3192): Preprocess
* `NewGreaterOrEqualOperand` (3219-3221): Preprocess
* `NewEndOfCondition` (3225-3228): Preprocess
* `NewFileInclusion` (3242-3251): Attributes
* `FileInclusion.GetLocation` (3255-3257): (a field of the element, or a function on it, in Elements or in the model of its caller)
* `FileInclusion.GetAttributes` (3260-3262): (a field of the element, or a function on it, in Elements or in the model of its caller)
* `FileInclusion.AddAttributes` (3265-3267): (a field of the element, or a function on it, in Elements or in the model of its caller)
* `FileInclusion.SetAttributes` (3270-3272): (a field of the element, or a function on it, in Elements or in the model of its caller)
* `NewRawLine` (3282-3286): Actions
* `RawLine.Contains` (3288-3290): (a field of the element, or a function on it, in Elements or in the model of its caller)
* `RawLine.HasSuffix` (3292-3294): (a field of the element, or a function on it, in Elements or in the model of its caller)
* `RawLine.Append` (3296-3298): (a field of the element, or a function on it, in Elements or in the model of its caller)
* `NewLineRanges` (3305-3323): Include
* `NewLineRange` (3335-3341): Include
* `LineRanges.Match` (3347-3358): Include
* `LineRanges.Len` (3363-3363): Include
* `LineRanges.Swap` (3364-3364): Include
* `LineRanges.Less` (3365-3365): Include
* `NewTagRanges` (3375-3391): Include
* `TagRanges.Match` (3394-3418): Include
* `NewTagRange` (3431-3436): Include
* `NewIncludedFileLine` (3457-3459): Include
* `IncludedFileLine.HasTag` (3462-3472): Include
* `IncludedFileLine.GetStartTag` (3475-3482): Include
* `IncludedFileLine.GetEndTag` (3485-3492): Include
* `NewIncludedFileStartTag` (3500-3502): Include
* `NewIncludedFileEndTag` (3510-3512): Include
* `NewLocation` (3525-3537): (a constructor of Elements; that the grammar calls it with these arguments is an assumption on the code of the actions wherever Actions does not give it)
* `Location.SetPath` (3539-3545): (a field of the element, or a function on it, in Elements or in the model of its caller)
* `Location.SetPathPrefix` (3549-3568): Render
* `Location.TrimAngleBracketSuffix` (3570-3591): (Substitute, Elements: locations are their text)
* `Location.ToString` (3595-3603): Render
* `Location.ToDisplayString` (3608-3618): Render
* `NewIndexTerm` (3630-3634): (a constructor of Elements; that the grammar calls it with these arguments is an assumption on the code of the actions wherever Actions does not give it)
* `NewConcealedIndexTerm` (3644-3650): (a constructor of Elements; that the grammar calls it with these arguments is an assumption on the code of the actions wherever Actions does not give it)
* `NewSpecialCharacter` (3664-3671): (a constructor of Elements; that the grammar calls it with these arguments is an assumption on the code of the actions wherever Actions does not give it)
* `NewSymbol` (3680-3684): Actions
* `NewElementPlaceHolder` (3699-3703): (a constructor of Elements; that the grammar calls it with these arguments is an assumption on the code of the actions wherever Actions does not give it)
* `ElementPlaceHolder.String` (3705-3707): Filter, Placeholders
* `NewTable` (3721-3733): Table
* `scanTableElements` (3735-3754): Table
* `organizeTableCells` (3756-3775): Table
* `Table.GetElements` (3780-3786): Filter, Substitute, Table
* `Table.SetElements` (3788-3804): Table
* `Table.GetAttributes` (3808-3810): Table
* `Table.AddAttributes` (3813-3816): Table
* `Table.SetAttributes` (3819-3822): Table
* `Table.reorganizeRows` (3824-3835): Table
* `Table.SetColumnDefinitions` (3837-3858): Substitute, Table
* `Table.rows` (3860-3875): Table
* `Table.Reference` (3879-3913): Targets
* `NewTableColumn` (3955-3981): (a constructor of Elements; that the grammar calls it with these arguments is an assumption on the code of the actions wherever Actions does not give it)
* `newDefaultTableColumn` (3983-3990): Render
* `Table.Columns` (3992-4056): Render, Table, Widths
* `NewTableRow` (4063-4076): (a constructor of Elements; that the grammar calls it with these arguments is an assumption on the code of the actions wherever Actions does not give it)
* `TableRow.GetAttributes` (4080-4082): (a field of the element, or a function on it, in Elements or in the model of its caller)
* `TableRow.AddAttributes` (4085-4087): (a field of the element, or a function on it, in Elements or in the model of its caller)
* `TableRow.SetAttributes` (4089-4090): (a field of the element, or a function on it, in Elements or in the model of its caller)
* `TableRow.GetElements` (4092-4098): (a field of the element, or a function on it, in Elements or in the model of its caller)
* `TableRow.SetElements` (4100-4111): Substitute
* `NewInlineTableCell` (4118-4124): (a constructor of Elements; that the grammar calls it with these arguments is an assumption on the code of the actions wherever Actions does not give it)
* `NewMultilineTableCell` (4126-4140): (a constructor of Elements; that the grammar calls it with these arguments is an assumption on the code of the actions wherever Actions does not give it)
* `TableCell.GetAttributes` (4144-4146): Substitute
* `TableCell.AddAttributes` (4148-4149): (a field of the element, or a function on it, in Elements or in the model of its caller)
* `TableCell.SetAttributes` (4151-4152): (a field of the element, or a function on it, in Elements or in the model of its caller)
* `TableCell.GetElements` (4154-4156): (a field of the element, or a function on it, in Elements or in the model of its caller)
* `TableCell.SetElements` (4158-4161): (a field of the element, or a function on it, in Elements or in the model of its caller)

## pkg/types/types_utils.go

* `merge` (12-59): Merge, Substitute
* `Flatten` (62-73): Actions
* `AllNilEntries` (76-90): (operations on lists, in the definitions of their callers)
* `Reduce` (98-132): Actions, Merge, Substitute
* `Apply` (138-144): (operations on lists, in the definitions of their callers)
* `stringify` (146-165): Render, Substitute
* `TrimTrailingSpaces` (168-182): Substitute
* `Append` (185-198): (operations on lists, in the definitions of their callers)
* `SplitElementsPerLine` (200-230): Merge, Render
* `InsertAt` (234-243): (operations on lists, in the definitions of their callers)

## pkg/validator/validator.go

* `Validate` (11-16): Validator
* `validateManpage` (42-69): Validator
* `assertThatElement` (72-76): (Validator: part of the definition of the caller)
* `elementAssertion.isSection` (82-92): Validator
* `withTitle` (96-104): Validator
* `withLevel` (106-110): Validator
* `assertThatElements` (113-117): (Validator: part of the definition of the caller)
* `elementsAssertion.haveCount` (123-125): (Validator: part of the definition of the caller)

