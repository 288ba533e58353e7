import Verif.Props.Context
import Verif.Props.Conditionals
import Verif.Props.LevelOffset
import Verif.Props.Include
import Verif.Props.Ranges
import Verif.Props.Inclusion
import Verif.Props.Isolation
import Verif.Props.Cwd
import Verif.Props.Ifeval
import Verif.Props.Pipeline
import Verif.Props.Fragments
import Verif.Props.Aggregate
import Verif.Props.Toc
import Verif.Props.Ids
import Verif.Props.IdText
import Verif.Props.Xref
import Verif.Props.Footnotes
import Verif.Props.Lists
import Verif.Props.Filter
import Verif.Props.Merge
import Verif.Props.Subs
import Verif.Props.AttrRefs
import Verif.Props.Placeholders
import Verif.Props.Table
import Verif.Props.Escape
import Verif.Props.Numbers
import Verif.Props.Captions
import Verif.Props.Validator
import Verif.Props.Attributes
import Verif.Props.Config
import Verif.Props.Output
import Verif.Props.Termination
import Verif.Props.FragmentLoop
import Verif.Props.Inline
import Verif.Props.Accepted
import Verif.Props.Blocks
import Verif.Model.RawLine
import Verif.Props.RawLine
import Verif.Props.RawForms
import Verif.Props.Declarations
import Verif.Props.Documents
import Verif.Spec.Markup
import Verif.Proofs.Markup
import Verif.Model.Template
import Verif.Model.Templates
import Verif.Proofs.TemplateCheck
import Verif.Proofs.TemplatesOk
import Verif.Model.Elements
import Verif.Model.Render
import Verif.Spec.Clean
import Verif.Proofs.RenderText
import Verif.Proofs.RenderSat
import Verif.Proofs.RenderWf
import Verif.Proofs.RenderInline
import Verif.Proofs.RenderBlocks
import Verif.Proofs.RenderLists
import Verif.Proofs.RenderTables
import Verif.Proofs.RenderSections
import Verif.Proofs.RenderElement
import Verif.Proofs.RenderDoc
import Verif.Props.Wellformed
import Verif.Spec.Content
import Verif.Proofs.ContentText
import Verif.Proofs.ContentSays
import Verif.Proofs.ContentInline
import Verif.Proofs.ContentBlocks
import Verif.Proofs.ContentDoc
import Verif.Props.Content
import Verif.Spec.Renderable
import Verif.Proofs.Runs
import Verif.Proofs.RunsInline
import Verif.Proofs.RunsBlocks
import Verif.Proofs.RunsElement
import Verif.Proofs.RunsDoc
import Verif.Proofs.RunsBound
import Verif.Proofs.Depth
import Verif.Props.Rendering
import Verif.Model.Substitute
import Verif.Spec.Substitution
import Verif.Proofs.KernelRfl
import Verif.Proofs.Substitute
import Verif.Proofs.SubstMeaning
import Verif.Props.Substitution
import Verif.Props.MapOrder
import Verif.Props.SubstPanic
import Verif.Props.MergeWalk
import Verif.Props.PlainText
import Verif.Model.FragmentValues
import Verif.Spec.Paragraphs
import Verif.Proofs.Exactly
import Verif.Props.Paragraphs
import Verif.Props.PlainParagraphs
import Verif.Model.Refine
import Verif.Spec.Prose
import Verif.Props.Prose
import Verif.Props.Refine
import Verif.Proofs.Within
import Verif.Spec.Composed
import Verif.Props.BlockValues
import Verif.Props.BlockParse
import Verif.Props.BlockRefine
import Verif.Props.BlockSubst
import Verif.Props.BlockRender
import Verif.Props.Composed
import Verif.Proofs.Begins
import Verif.Proofs.Agrees
import Verif.Spec.Sectioned
import Verif.Props.Heading
import Verif.Props.SectionParse
import Verif.Proofs.Nested
import Verif.Props.SectionIds
import Verif.Props.SectionRender
import Verif.Props.Sectioned
import Verif.Spec.Listed
import Verif.Props.ListParse
import Verif.Props.ListItems
import Verif.Props.ListLines
import Verif.Props.ListFragment
import Verif.Props.ListEnd
import Verif.Props.ListArrange
import Verif.Props.ListRender
import Verif.Props.SectionTree
import Verif.Props.ListStages
import Verif.Props.Listed
import Verif.Spec.Inlined
import Verif.Proofs.Holds
import Verif.Props.InlineText
import Verif.Props.InlinePlaces
import Verif.Props.InlineValues
import Verif.Props.InlineSigns
import Verif.Props.InlineMarks
import Verif.Props.InlineLoop
import Verif.Props.InlinePieces
import Verif.Props.InlineSubst
import Verif.Props.InlineRender
import Verif.Props.Inlined
import Verif.Props.InlineSample
import Verif.Props.InlineNot
import Verif.Spec.Headed
import Verif.Props.HeaderParse
import Verif.Props.HeaderLoop
import Verif.Props.HeaderKeys
import Verif.Props.HeaderRender
import Verif.Props.HeaderPage
import Verif.Props.HeaderStages
import Verif.Props.Headed
import Verif.Props.HeadedSample
import Verif.Props.HeaderFindings
import Verif.Spec.Referenced
import Verif.Model.Stage
import Verif.Props.RefText
import Verif.Props.RefMerge
import Verif.Props.RefSubst
import Verif.Props.RefDeclare
import Verif.Props.RefLoop
import Verif.Props.RefValues
import Verif.Props.RefRender
import Verif.Props.Referenced
import Verif.Props.RefSample
import Verif.Props.RefFindings
import Verif.Spec.Outlined
import Verif.Props.Outline
import Verif.Props.Outlined
import Verif.Props.OutlineSample
import Verif.Spec.Woven
import Verif.Props.WovenTree
import Verif.Props.Woven
import Verif.Props.WovenSample
import Verif.Model.Xrefs
import Verif.Props.InlineCross
import Verif.Props.WovenRefs
import Verif.Props.Crossed
import Verif.Props.CrossFindings
import Verif.Spec.Chosen
import Verif.Props.Chosen
import Verif.Props.ChosenPage
import Verif.Spec.Included
import Verif.Props.IncludeLine
import Verif.Props.Included
import Verif.Props.IncludedPage
import Verif.Props.IncludedPick
import Verif.Props.Targets
import Verif.Props.Widths
import Verif.Props.Pictures
import Verif.Props.PicturesPage
import Verif.Props.Figures
import Verif.Props.Tables
import Verif.Props.TablesPage
import Verif.Props.Links
import Verif.Props.LinksPage
