import Verif.Model.Peg

/-!
The whole grammar of `pkg/parser/parser.peg`, rule by rule, in the order of the file.
GENERATED by `tools/peg2lean.py` from the file itself: labels are dropped, code blocks are numbered in the
order of the file (`Verif.Peg.Sem` gives them a meaning). Nothing is simplified otherwise.
-/
namespace Verif
namespace Grammar
open Peg (Exp)

/-! The numbers of the rules. -/
namespace R
/-- parser.peg:25 -/ abbrev DocumentRawLine : Nat := 0
/-- parser.peg:41 -/ abbrev RawSection : Nat := 1
/-- parser.peg:64 -/ abbrev ConditionalInclusion : Nat := 2
/-- parser.peg:70 -/ abbrev Ifdef : Nat := 3
/-- parser.peg:74 -/ abbrev Ifndef : Nat := 4
/-- parser.peg:78 -/ abbrev ConditionalInclusionAttribute : Nat := 5
/-- parser.peg:82 -/ abbrev Ifeval : Nat := 6
/-- parser.peg:91 -/ abbrev IfevalExpressionMember : Nat := 7
/-- parser.peg:99 -/ abbrev IfevalExpressionOperand : Nat := 8
/-- parser.peg:119 -/ abbrev IfevalExpressionValue : Nat := 9
/-- parser.peg:123 -/ abbrev EndIf : Nat := 10
/-- parser.peg:127 -/ abbrev ConditionalVariableName : Nat := 11
/-- parser.peg:134 -/ abbrev FileInclusion : Nat := 12
/-- parser.peg:146 -/ abbrev FileIncludeAttributes : Nat := 13
/-- parser.peg:149 -/ abbrev LineRanges : Nat := 14
/-- parser.peg:156 -/ abbrev MultipleLineRanges : Nat := 15
/-- parser.peg:165 -/ abbrev MultilineRange : Nat := 16
/-- parser.peg:169 -/ abbrev SinglelineRange : Nat := 17
/-- parser.peg:174 -/ abbrev TagRanges : Nat := 18
/-- parser.peg:178 -/ abbrev MultipleTagRanges : Nat := 19
/-- parser.peg:187 -/ abbrev TagRange : Nat := 20
/-- parser.peg:193 -/ abbrev TagWildcard : Nat := 21
/-- parser.peg:203 -/ abbrev IncludedFileLine : Nat := 22
/-- parser.peg:207 -/ abbrev IncludedFileStartTag : Nat := 23
/-- parser.peg:211 -/ abbrev IncludedFileEndTag : Nat := 24
/-- parser.peg:227 -/ abbrev DocumentFragment : Nat := 25
/-- parser.peg:267 -/ abbrev RawLine : Nat := 26
/-- parser.peg:276 -/ abbrev DelimitedBlockElements : Nat := 27
/-- parser.peg:294 -/ abbrev FrontMatterFragmentElement : Nat := 28
/-- parser.peg:302 -/ abbrev AttributeDeclaration : Nat := 29
/-- parser.peg:318 -/ abbrev AttributeName : Nat := 30
/-- parser.peg:322 -/ abbrev AttributeDeclarationValue : Nat := 31
/-- parser.peg:338 -/ abbrev AttributeDeclarationValueElements : Nat := 32
/-- parser.peg:343 -/ abbrev AttributeDeclarationValueElement : Nat := 33
/-- parser.peg:360 -/ abbrev AttributeReset : Nat := 34
/-- parser.peg:369 -/ abbrev BlockAttributes : Nat := 35
/-- parser.peg:388 -/ abbrev InlineAttributes : Nat := 36
/-- parser.peg:403 -/ abbrev LegacyElementID : Nat := 37
/-- parser.peg:423 -/ abbrev ShortHandTitle : Nat := 38
/-- parser.peg:437 -/ abbrev LongHandAttributes : Nat := 39
/-- parser.peg:454 -/ abbrev FirstPositionalAttributes : Nat := 40
/-- parser.peg:483 -/ abbrev ShortHandIDAttribute : Nat := 41
/-- parser.peg:487 -/ abbrev ShortHandAttribute : Nat := 42
/-- parser.peg:492 -/ abbrev ShortHandDotRoleAttribute : Nat := 43
/-- parser.peg:497 -/ abbrev ShortHandOptionAttribute : Nat := 44
/-- parser.peg:502 -/ abbrev ShortHandAttributeValue : Nat := 45
/-- parser.peg:523 -/ abbrev PositionalAttribute : Nat := 46
/-- parser.peg:540 -/ abbrev NamedAttribute : Nat := 47
/-- parser.peg:549 -/ abbrev NamedAttributeKey : Nat := 48
/-- parser.peg:553 -/ abbrev AttributeValue : Nat := 49
/-- parser.peg:563 -/ abbrev SingleQuotedAttributeValue : Nat := 50
/-- parser.peg:570 -/ abbrev SingleQuotedAttributeValueContent : Nat := 51
/-- parser.peg:589 -/ abbrev DoubleQuotedAttributeValue : Nat := 52
/-- parser.peg:596 -/ abbrev DoubleQuotedAttributeValueContent : Nat := 53
/-- parser.peg:616 -/ abbrev UnquotedAttributeValue : Nat := 54
/-- parser.peg:634 -/ abbrev AttributeReference : Nat := 55
/-- parser.peg:643 -/ abbrev AttributeReferenceValue : Nat := 56
/-- parser.peg:656 -/ abbrev CounterReference : Nat := 57
/-- parser.peg:658 -/ abbrev CounterSubstitution1 : Nat := 58
/-- parser.peg:662 -/ abbrev CounterSubstitution2 : Nat := 59
/-- parser.peg:666 -/ abbrev CounterStart : Nat := 60
/-- parser.peg:677 -/ abbrev BlankLine : Nat := 61
/-- parser.peg:684 -/ abbrev CrossReference : Nat := 62
/-- parser.peg:686 -/ abbrev InternalCrossReference : Nat := 63
/-- parser.peg:692 -/ abbrev ExternalCrossReference : Nat := 64
/-- parser.peg:696 -/ abbrev CrossReferenceLabel : Nat := 65
/-- parser.peg:710 -/ abbrev DelimitedBlock : Nat := 66
/-- parser.peg:723 -/ abbrev BlockDelimiter : Nat := 67
/-- parser.peg:739 -/ abbrev CommentBlockDelimiter : Nat := 68
/-- parser.peg:746 -/ abbrev ExampleBlockDelimiter : Nat := 69
/-- parser.peg:753 -/ abbrev FencedBlockDelimiter : Nat := 70
/-- parser.peg:760 -/ abbrev MarkdownCodeDelimiter : Nat := 71
/-- parser.peg:764 -/ abbrev Language : Nat := 72
/-- parser.peg:768 -/ abbrev ListingBlockDelimiter : Nat := 73
/-- parser.peg:775 -/ abbrev OpenBlockDelimiter : Nat := 74
/-- parser.peg:782 -/ abbrev LiteralBlockDelimiter : Nat := 75
/-- parser.peg:789 -/ abbrev PassthroughBlockDelimiter : Nat := 76
/-- parser.peg:796 -/ abbrev QuoteBlockDelimiter : Nat := 77
/-- parser.peg:803 -/ abbrev SidebarBlockDelimiter : Nat := 78
/-- parser.peg:810 -/ abbrev DelimitedBlockRawLine : Nat := 79
/-- parser.peg:819 -/ abbrev CommentBlock : Nat := 80
/-- parser.peg:826 -/ abbrev CommentBlockStartDelimiter : Nat := 81
/-- parser.peg:828 -/ abbrev CommentBlockEndDelimiter : Nat := 82
/-- parser.peg:830 -/ abbrev CommentBlockContent : Nat := 83
/-- parser.peg:839 -/ abbrev ExampleBlock : Nat := 84
/-- parser.peg:849 -/ abbrev ExampleBlockStartDelimiter : Nat := 85
/-- parser.peg:851 -/ abbrev ExampleBlockEndDelimiter : Nat := 86
/-- parser.peg:858 -/ abbrev ExampleBlockContent : Nat := 87
/-- parser.peg:867 -/ abbrev FencedBlock : Nat := 88
/-- parser.peg:877 -/ abbrev FencedBlockStartDelimiter : Nat := 89
/-- parser.peg:879 -/ abbrev FencedBlockEndDelimiter : Nat := 90
/-- parser.peg:886 -/ abbrev FencedBlockContent : Nat := 91
/-- parser.peg:895 -/ abbrev ListingBlock : Nat := 92
/-- parser.peg:905 -/ abbrev ListingBlockStartDelimiter : Nat := 93
/-- parser.peg:907 -/ abbrev ListingBlockEndDelimiter : Nat := 94
/-- parser.peg:914 -/ abbrev ListingBlockContent : Nat := 95
/-- parser.peg:923 -/ abbrev LiteralBlock : Nat := 96
/-- parser.peg:933 -/ abbrev LiteralBlockStartDelimiter : Nat := 97
/-- parser.peg:935 -/ abbrev LiteralBlockEndDelimiter : Nat := 98
/-- parser.peg:942 -/ abbrev LiteralBlockContent : Nat := 99
/-- parser.peg:951 -/ abbrev MarkdownCodeBlock : Nat := 100
/-- parser.peg:961 -/ abbrev MarkdownCodeBlockStartDelimiter : Nat := 101
/-- parser.peg:963 -/ abbrev MarkdownCodeBlockEndDelimiter : Nat := 102
/-- parser.peg:965 -/ abbrev MarkdownCodeBlockContent : Nat := 103
/-- parser.peg:974 -/ abbrev MarkdownQuoteBlock : Nat := 104
/-- parser.peg:981 -/ abbrev MarkdownQuoteRawLine : Nat := 105
/-- parser.peg:988 -/ abbrev MarkdownQuoteAttribution : Nat := 106
/-- parser.peg:996 -/ abbrev OpenBlock : Nat := 107
/-- parser.peg:1003 -/ abbrev OpenBlockStartDelimiter : Nat := 108
/-- parser.peg:1005 -/ abbrev OpenBlockEndDelimiter : Nat := 109
/-- parser.peg:1007 -/ abbrev OpenBlockContent : Nat := 110
/-- parser.peg:1016 -/ abbrev PassthroughBlock : Nat := 111
/-- parser.peg:1026 -/ abbrev PassthroughBlockStartDelimiter : Nat := 112
/-- parser.peg:1028 -/ abbrev PassthroughBlockEndDelimiter : Nat := 113
/-- parser.peg:1035 -/ abbrev PassthroughBlockContent : Nat := 114
/-- parser.peg:1044 -/ abbrev QuoteBlock : Nat := 115
/-- parser.peg:1054 -/ abbrev QuoteBlockStartDelimiter : Nat := 116
/-- parser.peg:1056 -/ abbrev QuoteBlockEndDelimiter : Nat := 117
/-- parser.peg:1063 -/ abbrev QuoteBlockContent : Nat := 118
/-- parser.peg:1072 -/ abbrev SidebarBlock : Nat := 119
/-- parser.peg:1082 -/ abbrev SidebarBlockStartDelimiter : Nat := 120
/-- parser.peg:1084 -/ abbrev SidebarBlockEndDelimiter : Nat := 121
/-- parser.peg:1091 -/ abbrev SidebarBlockContent : Nat := 122
/-- parser.peg:1100 -/ abbrev DocumentHeader : Nat := 123
/-- parser.peg:1112 -/ abbrev DocumentTitle : Nat := 124
/-- parser.peg:1117 -/ abbrev DocumentAuthorsAndRevision : Nat := 125
/-- parser.peg:1125 -/ abbrev DocumentAuthors : Nat := 126
/-- parser.peg:1129 -/ abbrev DocumentAuthor : Nat := 127
/-- parser.peg:1140 -/ abbrev DocumentAuthorFullName : Nat := 128
/-- parser.peg:1157 -/ abbrev DocumentAuthorEmail : Nat := 129
/-- parser.peg:1169 -/ abbrev DocumentRevision : Nat := 130
/-- parser.peg:1179 -/ abbrev DocumentRevisionNumber : Nat := 131
/-- parser.peg:1185 -/ abbrev DocumentRevisionDate : Nat := 132
/-- parser.peg:1189 -/ abbrev DocumentRevisionRemark : Nat := 133
/-- parser.peg:1196 -/ abbrev ElementPlaceHolderDelimiter : Nat := 134
/-- parser.peg:1198 -/ abbrev ElementPlaceHolder : Nat := 135
/-- parser.peg:1205 -/ abbrev LineBreak : Nat := 136
/-- parser.peg:1221 -/ abbrev FrontMatter : Nat := 137
/-- parser.peg:1230 -/ abbrev YamlFrontMatter : Nat := 138
/-- parser.peg:1234 -/ abbrev YamlFrontMatterDelimiter : Nat := 139
/-- parser.peg:1236 -/ abbrev YamlFrontMatterContent : Nat := 140
/-- parser.peg:1240 -/ abbrev FrontMatterFragment : Nat := 141
/-- parser.peg:1242 -/ abbrev FrontMatterDelimiter : Nat := 142
/-- parser.peg:1244 -/ abbrev FrontMatterLine : Nat := 143
/-- parser.peg:1251 -/ abbrev InlineAnchor : Nat := 144
/-- parser.peg:1265 -/ abbrev InlineButton : Nat := 145
/-- parser.peg:1276 -/ abbrev InlineMenu : Nat := 146
/-- parser.peg:1287 -/ abbrev IndexTerm : Nat := 147
/-- parser.peg:1291 -/ abbrev IndexTermContent : Nat := 148
/-- parser.peg:1297 -/ abbrev ConcealedIndexTerm : Nat := 149
/-- parser.peg:1304 -/ abbrev ConcealedIndexTermContent : Nat := 150
/-- parser.peg:1311 -/ abbrev ImageBlock : Nat := 151
/-- parser.peg:1317 -/ abbrev InlineImage : Nat := 152
/-- parser.peg:1324 -/ abbrev InlineIcon : Nat := 153
/-- parser.peg:1331 -/ abbrev InlineFootnote : Nat := 154
/-- parser.peg:1335 -/ abbrev FootnoteRef : Nat := 155
/-- parser.peg:1337 -/ abbrev FootnoteElements : Nat := 156
/-- parser.peg:1341 -/ abbrev FootnoteElement : Nat := 157
/-- parser.peg:1365 -/ abbrev SinglePlusPassthroughPrefix : Nat := 158
/-- parser.peg:1367 -/ abbrev SinglePlusPassthrough : Nat := 159
/-- parser.peg:1371 -/ abbrev SinglePlusPassthroughContent : Nat := 160
/-- parser.peg:1377 -/ abbrev TriplePlusPassthroughPrefix : Nat := 161
/-- parser.peg:1379 -/ abbrev TriplePlusPassthrough : Nat := 162
/-- parser.peg:1383 -/ abbrev TriplePlusPassthroughContent : Nat := 163
/-- parser.peg:1389 -/ abbrev PassthroughMacro : Nat := 164
/-- parser.peg:1395 -/ abbrev PassthroughMacroCharacter : Nat := 165
/-- parser.peg:1402 -/ abbrev Link : Nat := 166
/-- parser.peg:1404 -/ abbrev BareURL : Nat := 167
/-- parser.peg:1417 -/ abbrev RelativeLink : Nat := 168
/-- parser.peg:1428 -/ abbrev ExternalLink : Nat := 169
/-- parser.peg:1440 -/ abbrev EmailAddress : Nat := 170
/-- parser.peg:1444 -/ abbrev EmailAddressLocal : Nat := 171
/-- parser.peg:1457 -/ abbrev EmailAddressDomain : Nat := 172
/-- parser.peg:1470 -/ abbrev ListElements : Nat := 173
/-- parser.peg:1476 -/ abbrev ListElement : Nat := 174
/-- parser.peg:1482 -/ abbrev ExtraListElements : Nat := 175
/-- parser.peg:1486 -/ abbrev ExtraListElement : Nat := 176
/-- parser.peg:1504 -/ abbrev ListElementParagraphLine : Nat := 177
/-- parser.peg:1517 -/ abbrev ListElementContent : Nat := 178
/-- parser.peg:1528 -/ abbrev ListContinuation : Nat := 179
/-- parser.peg:1536 -/ abbrev ListContinuationMarker : Nat := 180
/-- parser.peg:1538 -/ abbrev ListContinuationElement : Nat := 181
/-- parser.peg:1560 -/ abbrev ListContinuationParagraph : Nat := 182
/-- parser.peg:1569 -/ abbrev OrderedListElement : Nat := 183
/-- parser.peg:1576 -/ abbrev OrderedListElementPrefix : Nat := 184
/-- parser.peg:1619 -/ abbrev UnorderedListElement : Nat := 185
/-- parser.peg:1626 -/ abbrev UnorderedListElementPrefix : Nat := 186
/-- parser.peg:1641 -/ abbrev UnorderedListElementCheckStyle : Nat := 187
/-- parser.peg:1653 -/ abbrev LabeledListElement : Nat := 188
/-- parser.peg:1661 -/ abbrev LabeledListElementTerm : Nat := 189
/-- parser.peg:1666 -/ abbrev LabeledListElementSeparator : Nat := 190
/-- parser.peg:1677 -/ abbrev LabeledListElementDescription : Nat := 191
/-- parser.peg:1700 -/ abbrev Callout : Nat := 192
/-- parser.peg:1709 -/ abbrev CalloutListElement : Nat := 193
/-- parser.peg:1715 -/ abbrev CalloutListElementPrefix : Nat := 194
/-- parser.peg:1724 -/ abbrev ParagraphStyle : Nat := 195
/-- parser.peg:1744 -/ abbrev ShortcutParagraph : Nat := 196
/-- parser.peg:1769 -/ abbrev Paragraph : Nat := 197
/-- parser.peg:1783 -/ abbrev ParagraphRawLine : Nat := 198
/-- parser.peg:1795 -/ abbrev QuotedText : Nat := 199
/-- parser.peg:1797 -/ abbrev EscapedQuotedText : Nat := 200
/-- parser.peg:1813 -/ abbrev UnescapedQuotedText : Nat := 201
/-- parser.peg:1819 -/ abbrev SingleQuotedTextMarker : Nat := 202
/-- parser.peg:1821 -/ abbrev DoubleQuotedTextPrefix : Nat := 203
/-- parser.peg:1823 -/ abbrev SingleQuotedText : Nat := 204
/-- parser.peg:1831 -/ abbrev DoubleQuotedText : Nat := 205
/-- parser.peg:1837 -/ abbrev SubscriptOrSuperscriptPrefix : Nat := 206
/-- parser.peg:1841 -/ abbrev OneOrMoreBackslashes : Nat := 207
/-- parser.peg:1845 -/ abbrev TwoOrMoreBackslashes : Nat := 208
/-- parser.peg:1849 -/ abbrev QuotedTextElement : Nat := 209
/-- parser.peg:1867 -/ abbrev BoldTextDelimiter : Nat := 210
/-- parser.peg:1872 -/ abbrev DoubleQuoteBoldTextStartDelimiter : Nat := 211
/-- parser.peg:1874 -/ abbrev DoubleQuoteBoldTextEndDelimiter : Nat := 212
/-- parser.peg:1876 -/ abbrev DoubleQuoteBoldText : Nat := 213
/-- parser.peg:1883 -/ abbrev DoubleQuoteBoldTextElements : Nat := 214
/-- parser.peg:1885 -/ abbrev DoubleQuoteBoldTextElement : Nat := 215
/-- parser.peg:1896 -/ abbrev SingleQuoteBoldTextStartDelimiter : Nat := 216
/-- parser.peg:1904 -/ abbrev SingleQuoteBoldTextEndDelimiter : Nat := 217
/-- parser.peg:1913 -/ abbrev SingleQuoteBoldText : Nat := 218
/-- parser.peg:1920 -/ abbrev SingleQuoteBoldTextElements : Nat := 219
/-- parser.peg:1929 -/ abbrev SingleQuoteBoldTextElement : Nat := 220
/-- parser.peg:1937 -/ abbrev EscapedBoldText : Nat := 221
/-- parser.peg:1956 -/ abbrev ItalicTextDelimiter : Nat := 222
/-- parser.peg:1961 -/ abbrev DoubleQuoteItalicTextStartDelimiter : Nat := 223
/-- parser.peg:1963 -/ abbrev DoubleQuoteItalicTextEndDelimiter : Nat := 224
/-- parser.peg:1965 -/ abbrev DoubleQuoteItalicText : Nat := 225
/-- parser.peg:1972 -/ abbrev DoubleQuoteItalicTextElements : Nat := 226
/-- parser.peg:1974 -/ abbrev DoubleQuoteItalicTextElement : Nat := 227
/-- parser.peg:1985 -/ abbrev SingleQuoteItalicTextStartDelimiter : Nat := 228
/-- parser.peg:1994 -/ abbrev SingleQuoteItalicTextEndDelimiter : Nat := 229
/-- parser.peg:2003 -/ abbrev SingleQuoteItalicText : Nat := 230
/-- parser.peg:2010 -/ abbrev SingleQuoteItalicTextElements : Nat := 231
/-- parser.peg:2019 -/ abbrev SingleQuoteItalicTextElement : Nat := 232
/-- parser.peg:2027 -/ abbrev EscapedItalicText : Nat := 233
/-- parser.peg:2046 -/ abbrev MonospaceTextDelimiter : Nat := 234
/-- parser.peg:2051 -/ abbrev DoubleQuoteMonospaceTextStartDelimiter : Nat := 235
/-- parser.peg:2053 -/ abbrev DoubleQuoteMonospaceTextEndDelimiter : Nat := 236
/-- parser.peg:2055 -/ abbrev DoubleQuoteMonospaceText : Nat := 237
/-- parser.peg:2062 -/ abbrev DoubleQuoteMonospaceTextElements : Nat := 238
/-- parser.peg:2064 -/ abbrev DoubleQuoteMonospaceTextElement : Nat := 239
/-- parser.peg:2077 -/ abbrev SingleQuoteMonospaceTextStartDelimiter : Nat := 240
/-- parser.peg:2085 -/ abbrev SingleQuoteMonospaceTextEndDelimiter : Nat := 241
/-- parser.peg:2095 -/ abbrev SingleQuoteMonospaceText : Nat := 242
/-- parser.peg:2102 -/ abbrev SingleQuoteMonospaceTextElements : Nat := 243
/-- parser.peg:2111 -/ abbrev SingleQuoteMonospaceTextElement : Nat := 244
/-- parser.peg:2119 -/ abbrev EscapedMonospaceText : Nat := 245
/-- parser.peg:2138 -/ abbrev MarkedTextDelimiter : Nat := 246
/-- parser.peg:2143 -/ abbrev DoubleQuoteMarkedTextStartDelimiter : Nat := 247
/-- parser.peg:2145 -/ abbrev DoubleQuoteMarkedTextEndDelimiter : Nat := 248
/-- parser.peg:2147 -/ abbrev DoubleQuoteMarkedText : Nat := 249
/-- parser.peg:2154 -/ abbrev DoubleQuoteMarkedTextElements : Nat := 250
/-- parser.peg:2156 -/ abbrev DoubleQuoteMarkedTextElement : Nat := 251
/-- parser.peg:2167 -/ abbrev SingleQuoteMarkedTextStartDelimiter : Nat := 252
/-- parser.peg:2175 -/ abbrev SingleQuoteMarkedTextEndDelimiter : Nat := 253
/-- parser.peg:2184 -/ abbrev SingleQuoteMarkedText : Nat := 254
/-- parser.peg:2191 -/ abbrev SingleQuoteMarkedTextElements : Nat := 255
/-- parser.peg:2200 -/ abbrev SingleQuoteMarkedTextElement : Nat := 256
/-- parser.peg:2208 -/ abbrev EscapedMarkedText : Nat := 257
/-- parser.peg:2226 -/ abbrev SubscriptText : Nat := 258
/-- parser.peg:2233 -/ abbrev SubscriptTextDelimiter : Nat := 259
/-- parser.peg:2235 -/ abbrev SubscriptTextElement : Nat := 260
/-- parser.peg:2237 -/ abbrev NonSubscriptText : Nat := 261
/-- parser.peg:2241 -/ abbrev EscapedSubscriptText : Nat := 262
/-- parser.peg:2253 -/ abbrev SuperscriptText : Nat := 263
/-- parser.peg:2260 -/ abbrev SuperscriptTextDelimiter : Nat := 264
/-- parser.peg:2262 -/ abbrev SuperscriptTextElement : Nat := 265
/-- parser.peg:2264 -/ abbrev NonSuperscriptText : Nat := 266
/-- parser.peg:2268 -/ abbrev EscapedSuperscriptText : Nat := 267
/-- parser.peg:2281 -/ abbrev Section : Nat := 268
/-- parser.peg:2297 -/ abbrev SectionTitle : Nat := 269
/-- parser.peg:2307 -/ abbrev SectionTitleElement : Nat := 270
/-- parser.peg:2330 -/ abbrev SectionTitleLegacyID : Nat := 271
/-- parser.peg:2345 -/ abbrev NormalGroup : Nat := 272
/-- parser.peg:2373 -/ abbrev AttributeStructuredValue : Nat := 273
/-- parser.peg:2378 -/ abbrev AttributeStructuredValueElement : Nat := 274
/-- parser.peg:2397 -/ abbrev InlineMacro : Nat := 275
/-- parser.peg:2418 -/ abbrev InlinePassthrough : Nat := 276
/-- parser.peg:2429 -/ abbrev Quote : Nat := 277
/-- parser.peg:2436 -/ abbrev Replacement : Nat := 278
/-- parser.peg:2447 -/ abbrev SpecialCharacter : Nat := 279
/-- parser.peg:2462 -/ abbrev SinglelineComment : Nat := 280
/-- parser.peg:2467 -/ abbrev SinglelineCommentDelimiter : Nat := 281
/-- parser.peg:2469 -/ abbrev SinglelineCommentContent : Nat := 282
/-- parser.peg:2478 -/ abbrev TypographicQuote : Nat := 283
/-- parser.peg:2497 -/ abbrev Symbol : Nat := 284
/-- parser.peg:2514 -/ abbrev QuotationMark : Nat := 285
/-- parser.peg:2528 -/ abbrev Copyright : Nat := 286
/-- parser.peg:2532 -/ abbrev Trademark : Nat := 287
/-- parser.peg:2536 -/ abbrev Registered : Nat := 288
/-- parser.peg:2540 -/ abbrev Ellipsis : Nat := 289
/-- parser.peg:2544 -/ abbrev Mdash : Nat := 290
/-- parser.peg:2568 -/ abbrev SingleRightArrow : Nat := 291
/-- parser.peg:2572 -/ abbrev SingleLeftArrow : Nat := 292
/-- parser.peg:2576 -/ abbrev DoubleRightArrow : Nat := 293
/-- parser.peg:2580 -/ abbrev DoubleLeftArrow : Nat := 294
/-- parser.peg:2587 -/ abbrev Table : Nat := 295
/-- parser.peg:2594 -/ abbrev TableDelimiter : Nat := 296
/-- parser.peg:2596 -/ abbrev TableStartDelimiter : Nat := 297
/-- parser.peg:2598 -/ abbrev TableEndDelimiter : Nat := 298
/-- parser.peg:2600 -/ abbrev TableLine : Nat := 299
/-- parser.peg:2611 -/ abbrev InlineTableCells : Nat := 300
/-- parser.peg:2615 -/ abbrev InlineTableCell : Nat := 301
/-- parser.peg:2621 -/ abbrev InlineTableCellContent : Nat := 302
/-- parser.peg:2628 -/ abbrev MultilineTableCells : Nat := 303
/-- parser.peg:2632 -/ abbrev MultilineTableCell : Nat := 304
/-- parser.peg:2640 -/ abbrev MultilineTableCellContent : Nat := 305
/-- parser.peg:2652 -/ abbrev TableCellFormat : Nat := 306
/-- parser.peg:2657 -/ abbrev TableColumnsAttribute : Nat := 307
/-- parser.peg:2661 -/ abbrev Column : Nat := 308
/-- parser.peg:2697 -/ abbrev ThematicBreak : Nat := 309
/-- parser.peg:2707 -/ abbrev UserMacroBlock : Nat := 310
/-- parser.peg:2719 -/ abbrev InlineUserMacro : Nat := 311
/-- parser.peg:2731 -/ abbrev UserMacroName : Nat := 312
/-- parser.peg:2735 -/ abbrev UserMacroValue : Nat := 313
/-- parser.peg:2742 -/ abbrev Alphanum : Nat := 314
/-- parser.peg:2744 -/ abbrev Parenthesis : Nat := 315
/-- parser.peg:2746 -/ abbrev Alphanums : Nat := 316
/-- parser.peg:2750 -/ abbrev InlineText : Nat := 317
/-- parser.peg:2768 -/ abbrev Punctuation : Nat := 318
/-- parser.peg:2791 -/ abbrev AnyChar : Nat := 319
/-- parser.peg:2798 -/ abbrev AnyChars : Nat := 320
/-- parser.peg:2802 -/ abbrev ManyChars : Nat := 321
/-- parser.peg:2806 -/ abbrev FileLocation : Nat := 322
/-- parser.peg:2810 -/ abbrev Location : Nat := 323
/-- parser.peg:2814 -/ abbrev LocationWithScheme : Nat := 324
/-- parser.peg:2818 -/ abbrev Scheme : Nat := 325
/-- parser.peg:2822 -/ abbrev Filename : Nat := 326
/-- parser.peg:2837 -/ abbrev Id : Nat := 327
/-- parser.peg:2841 -/ abbrev Number : Nat := 328
/-- parser.peg:2844 -/ abbrev Integer : Nat := 329
/-- parser.peg:2848 -/ abbrev Float : Nat := 330
/-- parser.peg:2852 -/ abbrev Space : Nat := 331
/-- parser.peg:2856 -/ abbrev Spaces : Nat := 332
/-- parser.peg:2861 -/ abbrev Newline : Nat := 333
/-- parser.peg:2865 -/ abbrev SingleNewline : Nat := 334
/-- parser.peg:2869 -/ abbrev NotEOF : Nat := 335
/-- parser.peg:2871 -/ abbrev EOF : Nat := 336
/-- parser.peg:2874 -/ abbrev EOL : Nat := 337
end R

/-! The predicates (`&{…}`) and state changes (`#{…}`) of the grammar:

1 (parser.peg:42): `&{ return c.isSectionEnabled(), nil }`
2 (parser.peg:46): `&{ return !c.isWithinDelimitedBlock(), nil }`
4 (parser.peg:53): `&{ return level.(int) <= 5, nil }`
38 (parser.peg:196): `&{ return len(stars.(string)) <= 2, nil }`
46 (parser.peg:230): `#{ if attributes, ok := attributes.(types.Attributes); ok { c.storeBlockAttributes(attributes) } return nil }`
47 (parser.peg:253): `&{ return attributes != nil || element != nil, nil }`
50 (parser.peg:277): `#{ c.globalStore[withinDelimitedBlockKey]=true return nil }`
75 (parser.peg:467): `&{ return main != nil || len(extras.([]interface{})) > 0, nil }`
85 (parser.peg:530): `&{ return !types.AllNilEntries(value.([]interface{})), nil }`
102 (parser.peg:636): `&{ return c.isSubstitutionEnabled(AttributeRefs), nil }`
141 (parser.peg:841): `&{ return c.setBlockDelimiterLength(start.(*types.BlockDelimiter).Length) }`
143 (parser.peg:853): `&{ return c.matchBlockDelimiterLength(end.(*types.BlockDelimiter).Length) }`
145 (parser.peg:869): `&{ return c.setBlockDelimiterLength(start.(*types.BlockDelimiter).Length) }`
147 (parser.peg:881): `&{ return c.matchBlockDelimiterLength(end.(*types.BlockDelimiter).Length) }`
149 (parser.peg:897): `&{ return c.setBlockDelimiterLength(start.(*types.BlockDelimiter).Length) }`
151 (parser.peg:909): `&{ return c.matchBlockDelimiterLength(end.(*types.BlockDelimiter).Length) }`
153 (parser.peg:925): `&{ return c.setBlockDelimiterLength(start.(*types.BlockDelimiter).Length) }`
155 (parser.peg:937): `&{ return c.matchBlockDelimiterLength(end.(*types.BlockDelimiter).Length) }`
164 (parser.peg:1018): `&{ return c.setBlockDelimiterLength(start.(*types.BlockDelimiter).Length) }`
166 (parser.peg:1030): `&{ return c.matchBlockDelimiterLength(end.(*types.BlockDelimiter).Length) }`
168 (parser.peg:1046): `&{ return c.setBlockDelimiterLength(start.(*types.BlockDelimiter).Length) }`
170 (parser.peg:1058): `&{ return c.matchBlockDelimiterLength(end.(*types.BlockDelimiter).Length) }`
172 (parser.peg:1074): `&{ return c.setBlockDelimiterLength(start.(*types.BlockDelimiter).Length) }`
174 (parser.peg:1086): `&{ return c.matchBlockDelimiterLength(end.(*types.BlockDelimiter).Length) }`
176 (parser.peg:1101): `&{ return c.isDocumentHeaderAllowed(), nil }`
181 (parser.peg:1131): `&{ return fullName != nil || email != nil, nil }`
198 (parser.peg:1206): `&{ return c.isSubstitutionEnabled(PostReplacements), nil }`
199 (parser.peg:1210): `&{ return c.isPrecededBySpace(), nil }`
201 (parser.peg:1222): `&{ return c.isFrontMatterAllowed(), nil }`
208 (parser.peg:1266): `&{ return c.isExperimentalEnabled(), nil }`
210 (parser.peg:1277): `&{ return c.isExperimentalEnabled(), nil }`
242 (parser.peg:1448): `&{ return !strings.HasPrefix(local.(string), ".") && !strings.HasSuffix(local.(string), ".") && !strings.Contains(local.(string), ".."), nil }`
245 (parser.peg:1460): `&{ return !strings.HasSuffix(domain.(string), "-"), nil }`
260 (parser.peg:1583): `&{ return depth.(int) <= 5, nil }`
270 (parser.peg:1632): `&{ return len(style.(string)) <= 5, nil }`
279 (parser.peg:1670): `&{ return len(separator.(string)) >= 2 && len(separator.(string)) <= 4, nil }`
284 (parser.peg:1702): `&{ return c.isSubstitutionEnabled(Callouts), nil }`
290 (parser.peg:1725): `&{ return !c.isWithinLiteralParagraph(), nil }`
298 (parser.peg:1749): `&{ return !firstLine.(*types.RawLine).Contains(":: ") && !firstLine.(*types.RawLine).HasSuffix("::"), nil }`
303 (parser.peg:1785): `&{ return len(strings.TrimSpace(content.(string))) > 0, nil }`
313 (parser.peg:1898): `&{ return c.isSingleQuotedTextAllowed(), nil }`
314 (parser.peg:1907): `&{ return !c.isPrecededBySpace(), nil }`
316 (parser.peg:1923): `&{ return validateSingleQuoteElements(elements.([]interface{})) }`
324 (parser.peg:1987): `&{ return c.isSingleQuotedTextAllowed(), nil }`
325 (parser.peg:1997): `&{ return !c.isPrecededBySpace(), nil }`
327 (parser.peg:2013): `&{ return validateSingleQuoteElements(elements.([]interface{})) }`
335 (parser.peg:2079): `&{ return c.isSingleQuotedTextAllowed(), nil }`
336 (parser.peg:2088): `&{ return !c.isPrecededBySpace(), nil }`
338 (parser.peg:2105): `&{ return validateSingleQuoteElements(elements.([]interface{})) }`
346 (parser.peg:2169): `&{ return c.isSingleQuotedTextAllowed(), nil }`
347 (parser.peg:2178): `&{ return !c.isPrecededBySpace(), nil }`
349 (parser.peg:2194): `&{ return validateSingleQuoteElements(elements.([]interface{})) }`
361 (parser.peg:2282): `&{ return !c.isWithinDelimitedBlock(), nil }`
363 (parser.peg:2289): `&{ return level.(int) <= 5, nil }`
365 (parser.peg:2298): `#{ c.withSubstitutions(headerSubstitutions()) return nil }`
368 (parser.peg:2332): `&{ return c.isPrecededBySpace(), nil }`
374 (parser.peg:2399): `&{ return c.isSubstitutionEnabled(Macros), nil }`
376 (parser.peg:2420): `&{ return c.isSubstitutionEnabled(InlinePassthroughs), nil }`
378 (parser.peg:2431): `&{ return c.isSubstitutionEnabled(Quotes), nil }`
379 (parser.peg:2438): `&{ return c.isSubstitutionEnabled(Replacements), nil }`
381 (parser.peg:2449): `&{ return c.isSubstitutionEnabled(SpecialCharacters), nil }`
386 (parser.peg:2486): `&{ return c.isSubstitutionEnabled(Replacements), nil }`
387 (parser.peg:2489): `&{ return c.isPrecededByAlphanum(), nil }`
398 (parser.peg:2548): `&{ return c.isPrecededBySpace(), nil }`
400 (parser.peg:2558): `&{ return c.isPrecededByAlphanum(), nil }`
428 (parser.peg:2680): `&{ return multiplier != nil || halign != nil || valign != nil || weight != nil || style != nil || comma != nil, nil }`
431 (parser.peg:2709): `&{ return c.hasUserMacro(name.(string)), nil }`
433 (parser.peg:2721): `&{ return c.hasUserMacro(name.(string)), nil }`
439 (parser.peg:2756): `&{ return c.isInlineMacro(string(c.text)), nil }`
441 (parser.peg:2772): `&{ return c.allSubstitutionsDisabled(Macros,Quotes), nil }`
442 (parser.peg:2778): `&{ return c.isSubstitutionDisabled(Quotes), nil }`
-/

/-- parser.peg:25 `DocumentRawLine` -/
def gDocumentRawLine : Exp :=
  .act 0 (.scope (.seq (.alt (.rule R.AttributeDeclaration) (.alt (.rule R.AttributeReset) (.alt (.rule R.FileInclusion)
    (.alt (.rule R.ConditionalInclusion) (.alt (.rule R.BlockDelimiter) (.rule R.RawSection)))))) (.rule
    R.EOF)))

/-- parser.peg:41 `RawSection` -/
def gRawSection : Exp :=
  .act 5 (.scope (.seq (.pred 1) (.seq (.pred 2) (.seq (.act 3 (.plus (.lit ['=']))) (.seq (.pred 4) (.seq
    (.rule R.Spaces) (.seq (.rule R.ManyChars) (.rule R.EOF))))))))

/-- parser.peg:64 `ConditionalInclusion` -/
def gConditionalInclusion : Exp :=
  .alt (.rule R.Ifdef) (.alt (.rule R.Ifndef) (.alt (.rule R.Ifeval) (.rule R.EndIf)))

/-- parser.peg:70 `Ifdef` -/
def gIfdef : Exp :=
  .act 6 (.scope (.seq (.lit ['i', 'f', 'd', 'e', 'f', ':', ':']) (.seq (.rule R.ConditionalVariableName)
    (.seq (.lit ['[']) (.seq (.opt (.rule R.ConditionalInclusionAttribute)) (.seq (.lit [']']) (.seq (.star
    (.rule R.Space)) (.rule R.EOF))))))))

/-- parser.peg:74 `Ifndef` -/
def gIfndef : Exp :=
  .act 7 (.scope (.seq (.lit ['i', 'f', 'n', 'd', 'e', 'f', ':', ':']) (.seq (.rule R.ConditionalVariableName)
    (.seq (.lit ['[']) (.seq (.opt (.rule R.ConditionalInclusionAttribute)) (.seq (.lit [']']) (.seq (.star
    (.rule R.Space)) (.rule R.EOF))))))))

/-- parser.peg:78 `ConditionalInclusionAttribute` -/
def gConditionalInclusionAttribute : Exp :=
  .act 8 (.plus (.cls ⟨true, ['\r', '\n', ']'], [], false, false⟩))

/-- parser.peg:82 `Ifeval` -/
def gIfeval : Exp :=
  .act 9 (.scope (.seq (.lit ['i', 'f', 'e', 'v', 'a', 'l', ':', ':']) (.seq (.lit ['[']) (.seq (.rule R.IfevalExpressionMember)
    (.seq (.star (.rule R.Space)) (.seq (.rule R.IfevalExpressionOperand) (.seq (.star (.rule R.Space)) (.seq
    (.rule R.IfevalExpressionMember) (.seq (.lit [']']) (.seq (.star (.rule R.Space)) (.rule R.EOF)))))))))))

/-- parser.peg:91 `IfevalExpressionMember` -/
def gIfevalExpressionMember : Exp :=
  .alt (.act 10 (.scope (.seq (.lit ['"']) (.seq (.rule R.AttributeReferenceValue) (.lit ['"']))))) (.alt
    (.act 11 (.scope (.seq (.lit ['\'']) (.seq (.rule R.AttributeReferenceValue) (.lit ['\'']))))) (.alt
    (.act 12 (.rule R.AttributeReferenceValue)) (.alt (.act 14 (.scope (.seq (.lit ['"']) (.seq (.act 13
    (.plus (.cls ⟨false, [',', '?', '!', ';', '_', '-'], [], true, true⟩))) (.lit ['"']))))) (.alt (.act
    16 (.scope (.seq (.lit ['\'']) (.seq (.act 15 (.plus (.cls ⟨false, [',', '?', '!', ';', '_', '-'], [],
    true, true⟩))) (.lit ['\'']))))) (.rule R.Integer)))))

/-- parser.peg:99 `IfevalExpressionOperand` -/
def gIfevalExpressionOperand : Exp :=
  .alt (.act 17 (.lit ['=', '='])) (.alt (.act 18 (.lit ['!', '='])) (.alt (.act 19 (.lit ['<'])) (.alt (.act
    20 (.lit ['<', '='])) (.alt (.act 21 (.lit ['>'])) (.act 22 (.lit ['>', '=']))))))

/-- parser.peg:119 `IfevalExpressionValue` -/
def gIfevalExpressionValue : Exp :=
  .alt (.rule R.Number) (.rule R.Alphanums)

/-- parser.peg:123 `EndIf` -/
def gEndIf : Exp :=
  .act 23 (.scope (.seq (.lit ['e', 'n', 'd', 'i', 'f', ':', ':']) (.seq (.opt (.rule R.ConditionalVariableName))
    (.seq (.lit ['[']) (.seq (.opt (.rule R.ConditionalInclusionAttribute)) (.seq (.lit [']']) (.seq (.star
    (.rule R.Space)) (.rule R.EOF))))))))

/-- parser.peg:127 `ConditionalVariableName` -/
def gConditionalVariableName : Exp :=
  .act 24 (.plus (.cls ⟨true, ['\r', '\n', ' ', '['], [], false, false⟩))

/-- parser.peg:134 `FileInclusion` -/
def gFileInclusion : Exp :=
  .act 26 (.scope (.seq (.act 25 (.scope (.seq (.lit ['i', 'n', 'c', 'l', 'u', 'd', 'e', ':', ':']) (.seq
    (.rule R.FileLocation) (.rule R.InlineAttributes))))) (.seq (.star (.rule R.Space)) (.rule R.EOL))))

/-- parser.peg:146 `FileIncludeAttributes` -/
def gFileIncludeAttributes : Exp :=
  .rule R.LongHandAttributes

/-- parser.peg:149 `LineRanges` -/
def gLineRanges : Exp :=
  .act 27 (.scope (.seq (.alt (.rule R.MultipleLineRanges) (.alt (.rule R.MultilineRange) (.rule R.SinglelineRange)))
    (.rule R.EOF)))

/-- parser.peg:156 `MultipleLineRanges` -/
def gMultipleLineRanges : Exp :=
  .act 29 (.scope (.seq (.alt (.rule R.MultilineRange) (.rule R.SinglelineRange)) (.plus (.act 28 (.scope
    (.seq (.alt (.lit [',']) (.lit [';'])) (.alt (.rule R.MultilineRange) (.rule R.SinglelineRange))))))))

/-- parser.peg:165 `MultilineRange` -/
def gMultilineRange : Exp :=
  .act 30 (.scope (.seq (.rule R.Integer) (.seq (.lit ['.', '.']) (.rule R.Integer))))

/-- parser.peg:169 `SinglelineRange` -/
def gSinglelineRange : Exp :=
  .act 31 (.rule R.Integer)

/-- parser.peg:174 `TagRanges` -/
def gTagRanges : Exp :=
  .act 32 (.scope (.seq (.rule R.MultipleTagRanges) (.rule R.EOF)))

/-- parser.peg:178 `MultipleTagRanges` -/
def gMultipleTagRanges : Exp :=
  .act 34 (.scope (.seq (.rule R.TagRange) (.star (.act 33 (.scope (.seq (.alt (.lit [',']) (.lit [';']))
    (.rule R.TagRange)))))))

/-- parser.peg:187 `TagRange` -/
def gTagRange : Exp :=
  .alt (.act 35 (.alt (.rule R.Alphanums) (.rule R.TagWildcard))) (.act 36 (.scope (.seq (.lit ['!']) (.alt
    (.rule R.Alphanums) (.rule R.TagWildcard)))))

/-- parser.peg:193 `TagWildcard` -/
def gTagWildcard : Exp :=
  .act 39 (.scope (.seq (.act 37 (.plus (.lit ['*']))) (.pred 38)))

/-- parser.peg:203 `IncludedFileLine` -/
def gIncludedFileLine : Exp :=
  .act 41 (.scope (.seq (.star (.alt (.rule R.IncludedFileStartTag) (.alt (.rule R.IncludedFileEndTag) (.act
    40 .any)))) (.rule R.EOL)))

/-- parser.peg:207 `IncludedFileStartTag` -/
def gIncludedFileStartTag : Exp :=
  .act 43 (.scope (.seq (.lit ['t', 'a', 'g', ':', ':']) (.seq (.act 42 (.rule R.Alphanums)) (.lit ['[',
    ']']))))

/-- parser.peg:211 `IncludedFileEndTag` -/
def gIncludedFileEndTag : Exp :=
  .act 45 (.scope (.seq (.lit ['e', 'n', 'd', ':', ':']) (.seq (.act 44 (.rule R.Alphanums)) (.lit ['[',
    ']']))))

/-- parser.peg:227 `DocumentFragment` -/
def gDocumentFragment : Exp :=
  .act 48 (.scope (.seq (.rule R.NotEOF) (.seq (.opt (.rule R.BlockAttributes)) (.seq (.state 46) (.seq (.opt
    (.alt (.rule R.ImageBlock) (.alt (.rule R.UserMacroBlock) (.alt (.rule R.ShortcutParagraph) (.alt (.rule
    R.AttributeDeclaration) (.alt (.rule R.AttributeReset) (.alt (.rule R.BlankLine) (.alt (.rule R.DocumentHeader)
    (.alt (.rule R.Section) (.alt (.rule R.DelimitedBlock) (.alt (.rule R.ThematicBreak) (.alt (.rule R.ListElements)
    (.alt (.rule R.Table) (.alt (.rule R.SinglelineComment) (.alt (.rule R.FrontMatter) (.rule R.Paragraph))))))))))))))))
    (.pred 47))))))

/-- parser.peg:267 `RawLine` -/
def gRawLine : Exp :=
  .act 49 (.scope (.seq (.rule R.NotEOF) (.seq (.rule R.AnyChars) (.rule R.EOL))))

/-- parser.peg:276 `DelimitedBlockElements` -/
def gDelimitedBlockElements : Exp :=
  .act 51 (.scope (.seq (.state 50) (.seq (.star (.alt (.rule R.ElementPlaceHolder) (.rule R.DocumentFragment)))
    (.rule R.EOF))))

/-- parser.peg:294 `FrontMatterFragmentElement` -/
def gFrontMatterFragmentElement : Exp :=
  .alt (.rule R.FrontMatterDelimiter) (.rule R.BlankLine)

/-- parser.peg:302 `AttributeDeclaration` -/
def gAttributeDeclaration : Exp :=
  .act 53 (.scope (.seq (.lit [':']) (.seq (.rule R.AttributeName) (.seq (.lit [':']) (.seq (.opt (.act 52
    (.scope (.seq (.rule R.Spaces) (.rule R.AttributeDeclarationValue))))) (.rule R.EOL))))))

/-- parser.peg:318 `AttributeName` -/
def gAttributeName : Exp :=
  .act 54 (.scope (.seq (.cls ⟨false, ['_'], [], true, true⟩) (.star (.cls ⟨false, ['-'], [], true, true⟩))))

/-- parser.peg:322 `AttributeDeclarationValue` -/
def gAttributeDeclarationValue : Exp :=
  .act 56 (.scope (.seq (.rule R.AttributeDeclarationValueElements) (.star (.act 55 (.scope (.seq (.lit ['\\'])
    (.seq (.rule R.Newline) (.seq (.star (.rule R.Space)) (.rule R.AttributeDeclarationValueElements)))))))))

/-- parser.peg:338 `AttributeDeclarationValueElements` -/
def gAttributeDeclarationValueElements : Exp :=
  .act 57 (.star (.rule R.AttributeDeclarationValueElement))

/-- parser.peg:343 `AttributeDeclarationValueElement` -/
def gAttributeDeclarationValueElement : Exp :=
  .act 59 (.scope (.seq (.notP (.scope (.seq (.opt (.lit ['\\'])) (.seq (.star (.rule R.Space)) (.rule R.EOL)))))
    (.alt (.rule R.InlinePassthrough) (.alt (.act 58 (.plus (.cls ⟨true, ['\r', '\n', '<', '>', '&', '{',
    ' '], [], false, false⟩))) (.alt (.rule R.SpecialCharacter) (.alt (.rule R.Space) (.rule R.AttributeReference)))))))

/-- parser.peg:360 `AttributeReset` -/
def gAttributeReset : Exp :=
  .alt (.act 60 (.scope (.seq (.lit [':', '!']) (.seq (.rule R.AttributeName) (.seq (.lit [':']) (.seq (.star
    (.rule R.Space)) (.rule R.EOL))))))) (.act 61 (.scope (.seq (.lit [':']) (.seq (.rule R.AttributeName)
    (.seq (.lit ['!', ':']) (.seq (.star (.rule R.Space)) (.rule R.EOL)))))))

/-- parser.peg:369 `BlockAttributes` -/
def gBlockAttributes : Exp :=
  .act 65 (.plus (.alt (.act 62 (.scope (.seq (.rule R.LegacyElementID) (.seq (.star (.rule R.Space)) (.seq
    (.rule R.EOL) (.star (.rule R.BlankLine))))))) (.alt (.act 63 (.scope (.seq (.rule R.ShortHandTitle)
    (.seq (.star (.rule R.Space)) (.seq (.rule R.EOL) (.star (.rule R.BlankLine))))))) (.act 64 (.scope (.seq
    (.rule R.LongHandAttributes) (.seq (.star (.rule R.Space)) (.seq (.rule R.EOL) (.star (.rule R.BlankLine))))))))))

/-- parser.peg:388 `InlineAttributes` -/
def gInlineAttributes : Exp :=
  .act 67 (.scope (.seq (.lit ['[']) (.seq (.star (.act 66 (.scope (.seq (.notP (.lit [']'])) (.alt (.rule
    R.PositionalAttribute) (.rule R.NamedAttribute)))))) (.lit [']']))))

/-- parser.peg:403 `LegacyElementID` -/
def gLegacyElementID : Exp :=
  .act 71 (.scope (.seq (.lit ['[', '[']) (.seq (.act 70 (.plus (.alt (.act 68 (.plus (.cls ⟨true, ['=',
    '\r', '\n', '\ufffd', '{', ']'], [], false, false⟩))) (.alt (.rule R.ElementPlaceHolder) (.alt (.rule
    R.AttributeReference) (.act 69 (.lit ['{']))))))) (.lit [']', ']']))))

/-- parser.peg:423 `ShortHandTitle` -/
def gShortHandTitle : Exp :=
  .act 72 (.scope (.seq (.lit ['.']) (.seq (.notP (.cls ⟨false, ['.', ' '], [], false, false⟩)) (.plus (.alt
    (.rule R.Alphanums) (.alt (.rule R.Space) (.alt (.rule R.Punctuation) (.alt (.rule R.AttributeReferenceValue)
    (.rule R.AnyChar)))))))))

/-- parser.peg:437 `LongHandAttributes` -/
def gLongHandAttributes : Exp :=
  .act 73 (.scope (.seq (.notP (.lit ['\\'])) (.seq (.lit ['[']) (.seq (.notP (.lit ['['])) (.seq (.opt (.rule
    R.FirstPositionalAttributes)) (.seq (.star (.alt (.rule R.PositionalAttribute) (.rule R.NamedAttribute)))
    (.lit [']'])))))))

/-- parser.peg:454 `FirstPositionalAttributes` -/
def gFirstPositionalAttributes : Exp :=
  .act 76 (.scope (.seq (.opt (.rule R.ShortHandAttribute)) (.seq (.star (.act 74 (.scope (.seq (.notP (.lit
    [','])) (.seq (.notP (.lit [']'])) (.alt (.rule R.ShortHandIDAttribute) (.alt (.rule R.ShortHandOptionAttribute)
    (.rule R.ShortHandDotRoleAttribute)))))))) (.seq (.opt (.scope (.seq (.lit [',']) (.star (.rule R.Space)))))
    (.pred 75)))))

/-- parser.peg:483 `ShortHandIDAttribute` -/
def gShortHandIDAttribute : Exp :=
  .act 77 (.scope (.seq (.lit ['#']) (.rule R.ShortHandAttributeValue)))

/-- parser.peg:487 `ShortHandAttribute` -/
def gShortHandAttribute : Exp :=
  .act 78 (.rule R.ShortHandAttributeValue)

/-- parser.peg:492 `ShortHandDotRoleAttribute` -/
def gShortHandDotRoleAttribute : Exp :=
  .act 79 (.scope (.seq (.lit ['.']) (.rule R.ShortHandAttributeValue)))

/-- parser.peg:497 `ShortHandOptionAttribute` -/
def gShortHandOptionAttribute : Exp :=
  .act 80 (.scope (.seq (.lit ['%']) (.rule R.ShortHandAttributeValue)))

/-- parser.peg:502 `ShortHandAttributeValue` -/
def gShortHandAttributeValue : Exp :=
  .alt (.rule R.SingleQuotedAttributeValue) (.alt (.rule R.DoubleQuotedAttributeValue) (.act 83 (.scope (.seq
    (.plus (.alt (.rule R.QuotationMark) (.alt (.act 81 (.plus (.cls ⟨true, [',', '=', '.', '%', '#', ' ',
    '\r', '\n', '\ufffd', '{', ']'], [], false, false⟩))) (.alt (.rule R.AttributeReference) (.act 82 (.lit
    ['{'])))))) (.andP (.notP (.scope (.seq (.star (.rule R.Space)) (.lit ['='])))))))))

/-- parser.peg:523 `PositionalAttribute` -/
def gPositionalAttribute : Exp :=
  .alt (.act 84 (.scope (.seq (.rule R.AttributeValue) (.alt (.opt (.scope (.seq (.lit [',']) (.star (.rule
    R.Space))))) (.andP (.lit [']'])))))) (.act 86 (.scope (.seq (.scope (.seq (.star (.rule R.Space)) (.alt
    (.scope (.seq (.lit [',']) (.star (.rule R.Space)))) (.andP (.lit [']']))))) (.pred 85))))

/-- parser.peg:540 `NamedAttribute` -/
def gNamedAttribute : Exp :=
  .act 87 (.scope (.seq (.rule R.NamedAttributeKey) (.seq (.lit ['=']) (.seq (.star (.rule R.Space)) (.seq
    (.rule R.AttributeValue) (.opt (.scope (.seq (.lit [',']) (.star (.rule R.Space))))))))))

/-- parser.peg:549 `NamedAttributeKey` -/
def gNamedAttributeKey : Exp :=
  .act 88 (.scope (.seq (.notP (.rule R.Space)) (.plus (.cls ⟨true, ['\r', '\n', '=', ',', ']'], [], false,
    false⟩))))

/-- parser.peg:553 `AttributeValue` -/
def gAttributeValue : Exp :=
  .act 89 (.scope (.seq (.alt (.rule R.SingleQuotedAttributeValue) (.alt (.rule R.DoubleQuotedAttributeValue)
    (.rule R.UnquotedAttributeValue))) (.andP (.notP (.scope (.seq (.star (.rule R.Space)) (.lit ['='])))))))

/-- parser.peg:563 `SingleQuotedAttributeValue` -/
def gSingleQuotedAttributeValue : Exp :=
  .act 90 (.scope (.seq (.lit ['\'']) (.seq (.notP (.lit ['`'])) (.seq (.rule R.SingleQuotedAttributeValueContent)
    (.lit ['\''])))))

/-- parser.peg:570 `SingleQuotedAttributeValueContent` -/
def gSingleQuotedAttributeValueContent : Exp :=
  .act 94 (.plus (.alt (.rule R.Alphanums) (.alt (.rule R.Space) (.alt (.rule R.QuotationMark) (.alt (.rule
    R.AttributeReference) (.alt (.act 91 (.lit ['\\', '\''])) (.alt (.alt (.lit ['\'', '`']) (.alt (.lit
    ['`', '\'']) (.act 92 (.lit ['\\'])))) (.act 93 (.plus (.cls ⟨true, ['\r', '\n', '\\', '\'', '\'', ' '],
    [], false, false⟩))))))))))

/-- parser.peg:589 `DoubleQuotedAttributeValue` -/
def gDoubleQuotedAttributeValue : Exp :=
  .act 95 (.scope (.seq (.lit ['"']) (.seq (.notP (.lit ['`'])) (.seq (.rule R.DoubleQuotedAttributeValueContent)
    (.seq (.lit ['"']) (.andP (.notP (.scope (.seq (.star (.rule R.Space)) (.lit ['=']))))))))))

/-- parser.peg:596 `DoubleQuotedAttributeValueContent` -/
def gDoubleQuotedAttributeValueContent : Exp :=
  .act 99 (.plus (.alt (.rule R.Alphanums) (.alt (.rule R.Space) (.alt (.rule R.QuotationMark) (.alt (.rule
    R.AttributeReference) (.alt (.act 96 (.lit ['\\', '"'])) (.alt (.alt (.lit ['"', '`']) (.alt (.lit ['`',
    '"']) (.alt (.lit ['\\']) (.act 97 (.lit ['`']))))) (.act 98 (.plus (.cls ⟨true, ['\r', '\n', '\\', '"',
    '`', ' '], [], false, false⟩))))))))))

/-- parser.peg:616 `UnquotedAttributeValue` -/
def gUnquotedAttributeValue : Exp :=
  .act 101 (.scope (.seq (.notP (.rule R.Space)) (.plus (.alt (.scope (.seq (.lit ['[']) (.seq (.rule R.UnquotedAttributeValue)
    (.lit [']'])))) (.alt (.rule R.AttributeReference) (.alt (.lit ['{']) (.alt (.rule R.Space) (.act 100
    (.plus (.cls ⟨true, ['=', ',', ']', '{', ' '], [], false, false⟩))))))))))

/-- parser.peg:634 `AttributeReference` -/
def gAttributeReference : Exp :=
  .act 103 (.scope (.seq (.pred 102) (.alt (.rule R.AttributeReferenceValue) (.rule R.CounterReference))))

/-- parser.peg:643 `AttributeReferenceValue` -/
def gAttributeReferenceValue : Exp :=
  .alt (.act 104 (.scope (.seq (.lit ['\\']) (.seq (.lit ['{']) (.seq (.rule R.AttributeName) (.lit ['}']))))))
    (.act 105 (.scope (.seq (.lit ['{']) (.seq (.rule R.AttributeName) (.lit ['}'])))))

/-- parser.peg:656 `CounterReference` -/
def gCounterReference : Exp :=
  .alt (.rule R.CounterSubstitution1) (.rule R.CounterSubstitution2)

/-- parser.peg:658 `CounterSubstitution1` -/
def gCounterSubstitution1 : Exp :=
  .act 106 (.scope (.seq (.lit ['{', 'c', 'o', 'u', 'n', 't', 'e', 'r', ':']) (.seq (.rule R.AttributeName)
    (.seq (.opt (.rule R.CounterStart)) (.lit ['}'])))))

/-- parser.peg:662 `CounterSubstitution2` -/
def gCounterSubstitution2 : Exp :=
  .act 107 (.scope (.seq (.lit ['{', 'c', 'o', 'u', 'n', 't', 'e', 'r', '2', ':']) (.seq (.rule R.AttributeName)
    (.seq (.opt (.rule R.CounterStart)) (.lit ['}'])))))

/-- parser.peg:666 `CounterStart` -/
def gCounterStart : Exp :=
  .act 110 (.scope (.seq (.lit [':']) (.alt (.act 108 (.cls ⟨false, [], [('A', 'Z'), ('a', 'z')], false,
    false⟩)) (.act 109 (.plus (.cls ⟨false, [], [('0', '9')], false, false⟩))))))

/-- parser.peg:677 `BlankLine` -/
def gBlankLine : Exp :=
  .act 111 (.scope (.seq (.rule R.NotEOF) (.seq (.star (.rule R.Space)) (.rule R.EOL))))

/-- parser.peg:684 `CrossReference` -/
def gCrossReference : Exp :=
  .alt (.rule R.InternalCrossReference) (.rule R.ExternalCrossReference)

/-- parser.peg:686 `InternalCrossReference` -/
def gInternalCrossReference : Exp :=
  .alt (.act 112 (.scope (.seq (.lit ['<', '<']) (.seq (.rule R.Id) (.seq (.star (.rule R.Space)) (.seq (.lit
    [',']) (.seq (.rule R.CrossReferenceLabel) (.lit ['>', '>'])))))))) (.act 113 (.scope (.seq (.lit ['<',
    '<']) (.seq (.rule R.Id) (.lit ['>', '>'])))))

/-- parser.peg:692 `ExternalCrossReference` -/
def gExternalCrossReference : Exp :=
  .act 114 (.scope (.seq (.lit ['x', 'r', 'e', 'f', ':']) (.seq (.rule R.FileLocation) (.rule R.InlineAttributes))))

/-- parser.peg:696 `CrossReferenceLabel` -/
def gCrossReferenceLabel : Exp :=
  .plus (.alt (.act 115 (.scope (.seq (.cls ⟨false, [], [], true, true⟩) (.plus (.cls ⟨true, ['\r', '\n',
    '{', '<', '>'], [], false, false⟩))))) (.alt (.rule R.AttributeReferenceValue) (.act 116 (.lit ['{']))))

/-- parser.peg:710 `DelimitedBlock` -/
def gDelimitedBlock : Exp :=
  .alt (.rule R.CommentBlock) (.alt (.rule R.ExampleBlock) (.alt (.rule R.MarkdownCodeBlock) (.alt (.rule
    R.FencedBlock) (.alt (.rule R.ListingBlock) (.alt (.rule R.LiteralBlock) (.alt (.rule R.MarkdownQuoteBlock)
    (.alt (.rule R.OpenBlock) (.alt (.rule R.PassthroughBlock) (.alt (.rule R.QuoteBlock) (.rule R.SidebarBlock))))))))))

/-- parser.peg:723 `BlockDelimiter` -/
def gBlockDelimiter : Exp :=
  .act 117 (.scope (.seq (.notP (.rule R.Alphanum)) (.alt (.rule R.CommentBlockDelimiter) (.alt (.rule R.ExampleBlockDelimiter)
    (.alt (.rule R.MarkdownCodeDelimiter) (.alt (.rule R.FencedBlockDelimiter) (.alt (.rule R.ListingBlockDelimiter)
    (.alt (.rule R.LiteralBlockDelimiter) (.alt (.rule R.PassthroughBlockDelimiter) (.alt (.rule R.QuoteBlockDelimiter)
    (.rule R.SidebarBlockDelimiter)))))))))))

/-- parser.peg:739 `CommentBlockDelimiter` -/
def gCommentBlockDelimiter : Exp :=
  .act 119 (.scope (.seq (.act 118 (.scope (.seq (.lit ['/', '/', '/', '/']) (.star (.lit ['/']))))) (.seq
    (.star (.rule R.Space)) (.rule R.EOL))))

/-- parser.peg:746 `ExampleBlockDelimiter` -/
def gExampleBlockDelimiter : Exp :=
  .act 121 (.scope (.seq (.act 120 (.scope (.seq (.lit ['=', '=', '=', '=']) (.star (.lit ['=']))))) (.seq
    (.star (.rule R.Space)) (.rule R.EOL))))

/-- parser.peg:753 `FencedBlockDelimiter` -/
def gFencedBlockDelimiter : Exp :=
  .act 123 (.scope (.seq (.act 122 (.scope (.seq (.lit ['`', '`', '`']) (.star (.lit ['`']))))) (.seq (.star
    (.rule R.Space)) (.rule R.EOL))))

/-- parser.peg:760 `MarkdownCodeDelimiter` -/
def gMarkdownCodeDelimiter : Exp :=
  .act 124 (.scope (.seq (.lit ['`', '`', '`']) (.seq (.rule R.Language) (.seq (.star (.rule R.Space)) (.rule
    R.EOL)))))

/-- parser.peg:764 `Language` -/
def gLanguage : Exp :=
  .act 125 (.plus (.cls ⟨true, ['\r', '\n', '`', ' '], [], false, false⟩))

/-- parser.peg:768 `ListingBlockDelimiter` -/
def gListingBlockDelimiter : Exp :=
  .act 127 (.scope (.seq (.act 126 (.scope (.seq (.lit ['-', '-', '-', '-']) (.star (.lit ['-']))))) (.seq
    (.star (.rule R.Space)) (.rule R.EOL))))

/-- parser.peg:775 `OpenBlockDelimiter` -/
def gOpenBlockDelimiter : Exp :=
  .act 129 (.scope (.seq (.act 128 (.lit ['-', '-'])) (.seq (.star (.rule R.Space)) (.rule R.EOL))))

/-- parser.peg:782 `LiteralBlockDelimiter` -/
def gLiteralBlockDelimiter : Exp :=
  .act 131 (.scope (.seq (.act 130 (.scope (.seq (.lit ['.', '.', '.', '.']) (.star (.lit ['.']))))) (.seq
    (.star (.rule R.Space)) (.rule R.EOL))))

/-- parser.peg:789 `PassthroughBlockDelimiter` -/
def gPassthroughBlockDelimiter : Exp :=
  .act 133 (.scope (.seq (.act 132 (.scope (.seq (.lit ['+', '+', '+', '+']) (.star (.lit ['+']))))) (.seq
    (.star (.rule R.Space)) (.rule R.EOL))))

/-- parser.peg:796 `QuoteBlockDelimiter` -/
def gQuoteBlockDelimiter : Exp :=
  .act 135 (.scope (.seq (.act 134 (.scope (.seq (.lit ['_', '_', '_', '_']) (.star (.lit ['_']))))) (.seq
    (.star (.rule R.Space)) (.rule R.EOL))))

/-- parser.peg:803 `SidebarBlockDelimiter` -/
def gSidebarBlockDelimiter : Exp :=
  .act 137 (.scope (.seq (.act 136 (.scope (.seq (.lit ['*', '*', '*', '*']) (.star (.lit ['*']))))) (.seq
    (.star (.rule R.Space)) (.rule R.EOL))))

/-- parser.peg:810 `DelimitedBlockRawLine` -/
def gDelimitedBlockRawLine : Exp :=
  .act 138 (.scope (.seq (.rule R.NotEOF) (.seq (.rule R.AnyChars) (.rule R.EOL))))

/-- parser.peg:819 `CommentBlock` -/
def gCommentBlock : Exp :=
  .act 139 (.scope (.seq (.rule R.CommentBlockStartDelimiter) (.seq (.rule R.CommentBlockContent) (.opt (.rule
    R.CommentBlockEndDelimiter)))))

/-- parser.peg:826 `CommentBlockStartDelimiter` -/
def gCommentBlockStartDelimiter : Exp :=
  .rule R.CommentBlockDelimiter

/-- parser.peg:828 `CommentBlockEndDelimiter` -/
def gCommentBlockEndDelimiter : Exp :=
  .alt (.rule R.CommentBlockDelimiter) (.rule R.EOF)

/-- parser.peg:830 `CommentBlockContent` -/
def gCommentBlockContent : Exp :=
  .star (.act 140 (.scope (.seq (.notP (.rule R.CommentBlockEndDelimiter)) (.rule R.DelimitedBlockRawLine))))

/-- parser.peg:839 `ExampleBlock` -/
def gExampleBlock : Exp :=
  .act 142 (.scope (.seq (.rule R.ExampleBlockStartDelimiter) (.seq (.pred 141) (.seq (.rule R.ExampleBlockContent)
    (.opt (.rule R.ExampleBlockEndDelimiter))))))

/-- parser.peg:849 `ExampleBlockStartDelimiter` -/
def gExampleBlockStartDelimiter : Exp :=
  .rule R.ExampleBlockDelimiter

/-- parser.peg:851 `ExampleBlockEndDelimiter` -/
def gExampleBlockEndDelimiter : Exp :=
  .alt (.scope (.seq (.rule R.ExampleBlockDelimiter) (.pred 143))) (.rule R.EOF)

/-- parser.peg:858 `ExampleBlockContent` -/
def gExampleBlockContent : Exp :=
  .star (.act 144 (.scope (.seq (.notP (.rule R.ExampleBlockEndDelimiter)) (.rule R.DelimitedBlockRawLine))))

/-- parser.peg:867 `FencedBlock` -/
def gFencedBlock : Exp :=
  .act 146 (.scope (.seq (.rule R.FencedBlockStartDelimiter) (.seq (.pred 145) (.seq (.rule R.FencedBlockContent)
    (.opt (.rule R.FencedBlockEndDelimiter))))))

/-- parser.peg:877 `FencedBlockStartDelimiter` -/
def gFencedBlockStartDelimiter : Exp :=
  .rule R.FencedBlockDelimiter

/-- parser.peg:879 `FencedBlockEndDelimiter` -/
def gFencedBlockEndDelimiter : Exp :=
  .alt (.scope (.seq (.rule R.FencedBlockDelimiter) (.pred 147))) (.rule R.EOF)

/-- parser.peg:886 `FencedBlockContent` -/
def gFencedBlockContent : Exp :=
  .star (.act 148 (.scope (.seq (.notP (.rule R.FencedBlockEndDelimiter)) (.rule R.DelimitedBlockRawLine))))

/-- parser.peg:895 `ListingBlock` -/
def gListingBlock : Exp :=
  .act 150 (.scope (.seq (.rule R.ListingBlockStartDelimiter) (.seq (.pred 149) (.seq (.rule R.ListingBlockContent)
    (.opt (.rule R.ListingBlockEndDelimiter))))))

/-- parser.peg:905 `ListingBlockStartDelimiter` -/
def gListingBlockStartDelimiter : Exp :=
  .rule R.ListingBlockDelimiter

/-- parser.peg:907 `ListingBlockEndDelimiter` -/
def gListingBlockEndDelimiter : Exp :=
  .alt (.scope (.seq (.rule R.ListingBlockDelimiter) (.pred 151))) (.rule R.EOF)

/-- parser.peg:914 `ListingBlockContent` -/
def gListingBlockContent : Exp :=
  .star (.act 152 (.scope (.seq (.notP (.rule R.ListingBlockEndDelimiter)) (.rule R.DelimitedBlockRawLine))))

/-- parser.peg:923 `LiteralBlock` -/
def gLiteralBlock : Exp :=
  .act 154 (.scope (.seq (.rule R.LiteralBlockStartDelimiter) (.seq (.pred 153) (.seq (.rule R.LiteralBlockContent)
    (.opt (.rule R.LiteralBlockEndDelimiter))))))

/-- parser.peg:933 `LiteralBlockStartDelimiter` -/
def gLiteralBlockStartDelimiter : Exp :=
  .rule R.LiteralBlockDelimiter

/-- parser.peg:935 `LiteralBlockEndDelimiter` -/
def gLiteralBlockEndDelimiter : Exp :=
  .alt (.scope (.seq (.rule R.LiteralBlockDelimiter) (.pred 155))) (.rule R.EOF)

/-- parser.peg:942 `LiteralBlockContent` -/
def gLiteralBlockContent : Exp :=
  .star (.act 156 (.scope (.seq (.notP (.rule R.LiteralBlockEndDelimiter)) (.rule R.DelimitedBlockRawLine))))

/-- parser.peg:951 `MarkdownCodeBlock` -/
def gMarkdownCodeBlock : Exp :=
  .act 157 (.scope (.seq (.rule R.MarkdownCodeBlockStartDelimiter) (.seq (.rule R.MarkdownCodeBlockContent)
    (.opt (.rule R.MarkdownCodeBlockEndDelimiter)))))

/-- parser.peg:961 `MarkdownCodeBlockStartDelimiter` -/
def gMarkdownCodeBlockStartDelimiter : Exp :=
  .rule R.MarkdownCodeDelimiter

/-- parser.peg:963 `MarkdownCodeBlockEndDelimiter` -/
def gMarkdownCodeBlockEndDelimiter : Exp :=
  .scope (.seq (.lit ['`', '`', '`']) (.seq (.star (.rule R.Space)) (.rule R.EOL)))

/-- parser.peg:965 `MarkdownCodeBlockContent` -/
def gMarkdownCodeBlockContent : Exp :=
  .star (.act 158 (.scope (.seq (.notP (.rule R.MarkdownCodeBlockEndDelimiter)) (.rule R.DelimitedBlockRawLine))))

/-- parser.peg:974 `MarkdownQuoteBlock` -/
def gMarkdownQuoteBlock : Exp :=
  .act 159 (.scope (.seq (.rule R.MarkdownQuoteRawLine) (.star (.alt (.rule R.MarkdownQuoteRawLine) (.rule
    R.ParagraphRawLine)))))

/-- parser.peg:981 `MarkdownQuoteRawLine` -/
def gMarkdownQuoteRawLine : Exp :=
  .act 160 (.scope (.seq (.notP (.rule R.BlankLine)) (.seq (.lit ['>', ' ']) (.seq (.rule R.ManyChars) (.rule
    R.EOL)))))

/-- parser.peg:988 `MarkdownQuoteAttribution` -/
def gMarkdownQuoteAttribution : Exp :=
  .act 161 (.scope (.seq (.lit ['-', '-', ' ']) (.seq (.rule R.ManyChars) (.rule R.EOL))))

/-- parser.peg:996 `OpenBlock` -/
def gOpenBlock : Exp :=
  .act 162 (.scope (.seq (.rule R.OpenBlockStartDelimiter) (.seq (.rule R.OpenBlockContent) (.opt (.rule
    R.OpenBlockEndDelimiter)))))

/-- parser.peg:1003 `OpenBlockStartDelimiter` -/
def gOpenBlockStartDelimiter : Exp :=
  .rule R.OpenBlockDelimiter

/-- parser.peg:1005 `OpenBlockEndDelimiter` -/
def gOpenBlockEndDelimiter : Exp :=
  .alt (.rule R.OpenBlockDelimiter) (.rule R.EOF)

/-- parser.peg:1007 `OpenBlockContent` -/
def gOpenBlockContent : Exp :=
  .star (.act 163 (.scope (.seq (.notP (.rule R.OpenBlockEndDelimiter)) (.rule R.DelimitedBlockRawLine))))

/-- parser.peg:1016 `PassthroughBlock` -/
def gPassthroughBlock : Exp :=
  .act 165 (.scope (.seq (.rule R.PassthroughBlockStartDelimiter) (.seq (.pred 164) (.seq (.rule R.PassthroughBlockContent)
    (.opt (.rule R.PassthroughBlockEndDelimiter))))))

/-- parser.peg:1026 `PassthroughBlockStartDelimiter` -/
def gPassthroughBlockStartDelimiter : Exp :=
  .rule R.PassthroughBlockDelimiter

/-- parser.peg:1028 `PassthroughBlockEndDelimiter` -/
def gPassthroughBlockEndDelimiter : Exp :=
  .alt (.scope (.seq (.rule R.PassthroughBlockDelimiter) (.pred 166))) (.rule R.EOF)

/-- parser.peg:1035 `PassthroughBlockContent` -/
def gPassthroughBlockContent : Exp :=
  .star (.act 167 (.scope (.seq (.notP (.rule R.PassthroughBlockEndDelimiter)) (.rule R.DelimitedBlockRawLine))))

/-- parser.peg:1044 `QuoteBlock` -/
def gQuoteBlock : Exp :=
  .act 169 (.scope (.seq (.rule R.QuoteBlockStartDelimiter) (.seq (.pred 168) (.seq (.rule R.QuoteBlockContent)
    (.opt (.rule R.QuoteBlockEndDelimiter))))))

/-- parser.peg:1054 `QuoteBlockStartDelimiter` -/
def gQuoteBlockStartDelimiter : Exp :=
  .rule R.QuoteBlockDelimiter

/-- parser.peg:1056 `QuoteBlockEndDelimiter` -/
def gQuoteBlockEndDelimiter : Exp :=
  .alt (.scope (.seq (.rule R.QuoteBlockDelimiter) (.pred 170))) (.rule R.EOF)

/-- parser.peg:1063 `QuoteBlockContent` -/
def gQuoteBlockContent : Exp :=
  .star (.act 171 (.scope (.seq (.notP (.rule R.QuoteBlockEndDelimiter)) (.rule R.DelimitedBlockRawLine))))

/-- parser.peg:1072 `SidebarBlock` -/
def gSidebarBlock : Exp :=
  .act 173 (.scope (.seq (.rule R.SidebarBlockStartDelimiter) (.seq (.pred 172) (.seq (.rule R.SidebarBlockContent)
    (.opt (.rule R.SidebarBlockEndDelimiter))))))

/-- parser.peg:1082 `SidebarBlockStartDelimiter` -/
def gSidebarBlockStartDelimiter : Exp :=
  .rule R.SidebarBlockDelimiter

/-- parser.peg:1084 `SidebarBlockEndDelimiter` -/
def gSidebarBlockEndDelimiter : Exp :=
  .alt (.scope (.seq (.rule R.SidebarBlockDelimiter) (.pred 174))) (.rule R.EOF)

/-- parser.peg:1091 `SidebarBlockContent` -/
def gSidebarBlockContent : Exp :=
  .star (.act 175 (.scope (.seq (.notP (.rule R.SidebarBlockEndDelimiter)) (.rule R.DelimitedBlockRawLine))))

/-- parser.peg:1100 `DocumentHeader` -/
def gDocumentHeader : Exp :=
  .act 177 (.scope (.seq (.pred 176) (.seq (.star (.alt (.rule R.SinglelineComment) (.rule R.CommentBlock)))
    (.seq (.rule R.DocumentTitle) (.seq (.star (.alt (.rule R.SinglelineComment) (.rule R.CommentBlock)))
    (.seq (.opt (.rule R.DocumentAuthorsAndRevision)) (.star (.alt (.rule R.AttributeDeclaration) (.alt (.rule
    R.AttributeReset) (.alt (.rule R.SinglelineComment) (.rule R.CommentBlock)))))))))))

/-- parser.peg:1112 `DocumentTitle` -/
def gDocumentTitle : Exp :=
  .act 178 (.scope (.seq (.lit ['=']) (.seq (.rule R.Spaces) (.seq (.rule R.SectionTitle) (.rule R.EOL)))))

/-- parser.peg:1117 `DocumentAuthorsAndRevision` -/
def gDocumentAuthorsAndRevision : Exp :=
  .act 179 (.scope (.seq (.notP (.lit [':'])) (.seq (.rule R.DocumentAuthors) (.seq (.star (.alt (.rule R.SinglelineComment)
    (.rule R.CommentBlock))) (.opt (.rule R.DocumentRevision))))))

/-- parser.peg:1125 `DocumentAuthors` -/
def gDocumentAuthors : Exp :=
  .act 180 (.scope (.seq (.star (.rule R.Space)) (.seq (.plus (.rule R.DocumentAuthor)) (.rule R.EOL))))

/-- parser.peg:1129 `DocumentAuthor` -/
def gDocumentAuthor : Exp :=
  .act 182 (.scope (.seq (.opt (.rule R.DocumentAuthorFullName)) (.seq (.opt (.rule R.DocumentAuthorEmail))
    (.seq (.star (.rule R.Space)) (.seq (.opt (.lit [';'])) (.seq (.star (.rule R.Space)) (.pred 181)))))))

/-- parser.peg:1140 `DocumentAuthorFullName` -/
def gDocumentAuthorFullName : Exp :=
  .act 186 (.scope (.seq (.act 183 (.plus (.cls ⟨true, ['<', ';', '\r', '\n', ' '], [], false, false⟩)))
    (.seq (.star (.rule R.Space)) (.seq (.opt (.act 184 (.plus (.cls ⟨true, ['<', ';', '\r', '\n', ' '],
    [], false, false⟩)))) (.seq (.star (.rule R.Space)) (.seq (.opt (.act 185 (.plus (.cls ⟨true, ['<', ';',
    '\r', '\n'], [], false, false⟩)))) (.star (.rule R.Space))))))))

/-- parser.peg:1157 `DocumentAuthorEmail` -/
def gDocumentAuthorEmail : Exp :=
  .act 188 (.scope (.seq (.rule R.NotEOF) (.seq (.lit ['<']) (.seq (.act 187 (.plus (.cls ⟨true, ['>', '\r',
    '\n'], [], false, false⟩))) (.lit ['>'])))))

/-- parser.peg:1169 `DocumentRevision` -/
def gDocumentRevision : Exp :=
  .act 191 (.scope (.seq (.star (.rule R.Space)) (.seq (.notP (.lit [':'])) (.seq (.alt (.act 189 (.scope
    (.seq (.rule R.DocumentRevisionNumber) (.seq (.opt (.lit [','])) (.seq (.opt (.rule R.DocumentRevisionDate))
    (.seq (.opt (.lit [':'])) (.opt (.rule R.DocumentRevisionRemark)))))))) (.act 190 (.scope (.seq (.rule
    R.DocumentRevisionDate) (.seq (.opt (.lit [':'])) (.opt (.rule R.DocumentRevisionRemark))))))) (.rule
    R.EOL)))))

/-- parser.peg:1179 `DocumentRevisionNumber` -/
def gDocumentRevisionNumber : Exp :=
  .alt (.act 192 (.scope (.seq (.litI ['v']) (.seq (.cls ⟨false, [], [('0', '9')], false, false⟩) (.plus
    (.cls ⟨true, [':', ',', '\r', '\n'], [], false, false⟩)))))) (.act 193 (.scope (.seq (.opt (.litI ['v']))
    (.seq (.cls ⟨false, [], [('0', '9')], false, false⟩) (.seq (.plus (.cls ⟨true, [':', ',', '\r', '\n'],
    [], false, false⟩)) (.seq (.star (.rule R.Space)) (.andP (.lit [',']))))))))

/-- parser.peg:1185 `DocumentRevisionDate` -/
def gDocumentRevisionDate : Exp :=
  .act 194 (.plus (.cls ⟨true, [':', '\r', '\n'], [], false, false⟩))

/-- parser.peg:1189 `DocumentRevisionRemark` -/
def gDocumentRevisionRemark : Exp :=
  .act 195 (.plus (.cls ⟨true, ['\r', '\r', '\n'], [], false, false⟩))

/-- parser.peg:1196 `ElementPlaceHolderDelimiter` -/
def gElementPlaceHolderDelimiter : Exp :=
  .lit ['\ufffd']

/-- parser.peg:1198 `ElementPlaceHolder` -/
def gElementPlaceHolder : Exp :=
  .act 197 (.scope (.seq (.rule R.ElementPlaceHolderDelimiter) (.seq (.act 196 (.plus (.cls ⟨false, [], [('0',
    '9')], false, false⟩))) (.rule R.ElementPlaceHolderDelimiter))))

/-- parser.peg:1205 `LineBreak` -/
def gLineBreak : Exp :=
  .act 200 (.scope (.seq (.pred 198) (.seq (.lit ['+']) (.seq (.pred 199) (.seq (.star (.rule R.Space)) (.andP
    (.rule R.EOL)))))))

/-- parser.peg:1221 `FrontMatter` -/
def gFrontMatter : Exp :=
  .act 202 (.scope (.seq (.pred 201) (.rule R.YamlFrontMatter)))

/-- parser.peg:1230 `YamlFrontMatter` -/
def gYamlFrontMatter : Exp :=
  .act 203 (.scope (.seq (.rule R.YamlFrontMatterDelimiter) (.seq (.opt (.rule R.YamlFrontMatterContent))
    (.rule R.YamlFrontMatterDelimiter))))

/-- parser.peg:1234 `YamlFrontMatterDelimiter` -/
def gYamlFrontMatterDelimiter : Exp :=
  .scope (.seq (.lit ['-', '-', '-']) (.seq (.star (.rule R.Space)) (.rule R.EOL)))

/-- parser.peg:1236 `YamlFrontMatterContent` -/
def gYamlFrontMatterContent : Exp :=
  .act 204 (.star (.plus (.scope (.seq (.notP (.rule R.YamlFrontMatterDelimiter)) .any))))

/-- parser.peg:1240 `FrontMatterFragment` -/
def gFrontMatterFragment : Exp :=
  .alt (.rule R.FrontMatterDelimiter) (.alt (.rule R.BlankLine) (.rule R.FrontMatterLine))

/-- parser.peg:1242 `FrontMatterDelimiter` -/
def gFrontMatterDelimiter : Exp :=
  .scope (.seq (.lit ['-', '-', '-']) (.seq (.star (.rule R.Space)) (.rule R.EOF)))

/-- parser.peg:1244 `FrontMatterLine` -/
def gFrontMatterLine : Exp :=
  .act 205 (.star .any)

/-- parser.peg:1251 `InlineAnchor` -/
def gInlineAnchor : Exp :=
  .alt (.act 206 (.scope (.seq (.lit ['\\']) (.seq (.lit ['[', '[']) (.seq (.rule R.Id) (.lit [']', ']']))))))
    (.act 207 (.scope (.seq (.lit ['[', '[']) (.seq (.rule R.Id) (.lit [']', ']'])))))

/-- parser.peg:1265 `InlineButton` -/
def gInlineButton : Exp :=
  .act 209 (.scope (.seq (.pred 208) (.seq (.lit ['b', 't', 'n', ':']) (.rule R.InlineAttributes))))

/-- parser.peg:1276 `InlineMenu` -/
def gInlineMenu : Exp :=
  .act 211 (.scope (.seq (.pred 210) (.seq (.lit ['m', 'e', 'n', 'u', ':']) (.seq (.rule R.Id) (.rule R.InlineAttributes)))))

/-- parser.peg:1287 `IndexTerm` -/
def gIndexTerm : Exp :=
  .act 212 (.scope (.seq (.lit ['(', '(']) (.seq (.rule R.IndexTermContent) (.lit [')', ')']))))

/-- parser.peg:1291 `IndexTermContent` -/
def gIndexTermContent : Exp :=
  .act 214 (.plus (.alt (.rule R.Alphanums) (.alt (.rule R.QuotedText) (.alt (.rule R.Space) (.alt (.rule
    R.SpecialCharacter) (.alt (.rule R.ElementPlaceHolder) (.act 213 (.scope (.seq (.notP (.lit [')', ')']))
    .any)))))))))

/-- parser.peg:1297 `ConcealedIndexTerm` -/
def gConcealedIndexTerm : Exp :=
  .act 217 (.scope (.seq (.lit ['(', '(', '(']) (.seq (.rule R.ConcealedIndexTermContent) (.seq (.opt (.act
    215 (.scope (.seq (.star (.rule R.Space)) (.seq (.lit [',']) (.seq (.star (.rule R.Space)) (.rule R.ConcealedIndexTermContent)))))))
    (.seq (.opt (.act 216 (.scope (.seq (.star (.rule R.Space)) (.seq (.lit [',']) (.seq (.star (.rule R.Space))
    (.rule R.ConcealedIndexTermContent))))))) (.lit [')', ')', ')']))))))

/-- parser.peg:1304 `ConcealedIndexTermContent` -/
def gConcealedIndexTermContent : Exp :=
  .act 218 (.plus (.alt (.rule R.Alphanum) (.rule R.Space)))

/-- parser.peg:1311 `ImageBlock` -/
def gImageBlock : Exp :=
  .act 219 (.scope (.seq (.lit ['i', 'm', 'a', 'g', 'e', ':', ':']) (.seq (.rule R.Location) (.seq (.rule
    R.InlineAttributes) (.seq (.star (.rule R.Space)) (.rule R.EOL))))))

/-- parser.peg:1317 `InlineImage` -/
def gInlineImage : Exp :=
  .act 220 (.scope (.seq (.lit ['i', 'm', 'a', 'g', 'e', ':']) (.seq (.notP (.lit [':'])) (.seq (.rule R.Location)
    (.rule R.InlineAttributes)))))

/-- parser.peg:1324 `InlineIcon` -/
def gInlineIcon : Exp :=
  .act 222 (.scope (.seq (.lit ['i', 'c', 'o', 'n', ':']) (.seq (.act 221 (.plus (.cls ⟨false, ['_', '-'],
    [], true, true⟩))) (.rule R.InlineAttributes))))

/-- parser.peg:1331 `InlineFootnote` -/
def gInlineFootnote : Exp :=
  .act 223 (.scope (.seq (.lit ['f', 'o', 'o', 't', 'n', 'o', 't', 'e', ':']) (.seq (.opt (.rule R.FootnoteRef))
    (.seq (.lit ['[']) (.seq (.rule R.FootnoteElements) (.lit [']']))))))

/-- parser.peg:1335 `FootnoteRef` -/
def gFootnoteRef : Exp :=
  .rule R.Alphanums

/-- parser.peg:1337 `FootnoteElements` -/
def gFootnoteElements : Exp :=
  .act 224 (.star (.rule R.FootnoteElement))

/-- parser.peg:1341 `FootnoteElement` -/
def gFootnoteElement : Exp :=
  .act 225 (.scope (.seq (.notP (.lit [']'])) (.alt (.rule R.InlineText) (.alt (.rule R.Spaces) (.alt (.rule
    R.TypographicQuote) (.alt (.rule R.Quote) (.alt (.rule R.Replacement) (.alt (.rule R.Punctuation) (.alt
    (.rule R.InlineMacro) (.alt (.rule R.LineBreak) (.alt (.rule R.AttributeReference) (.alt (.rule R.SpecialCharacter)
    (.alt (.rule R.Newline) (.rule R.AnyChar))))))))))))))

/-- parser.peg:1365 `SinglePlusPassthroughPrefix` -/
def gSinglePlusPassthroughPrefix : Exp :=
  .lit ['+']

/-- parser.peg:1367 `SinglePlusPassthrough` -/
def gSinglePlusPassthrough : Exp :=
  .act 226 (.scope (.seq (.rule R.SinglePlusPassthroughPrefix) (.seq (.rule R.SinglePlusPassthroughContent)
    (.seq (.rule R.SinglePlusPassthroughPrefix) (.notP (.rule R.Alphanum))))))

/-- parser.peg:1371 `SinglePlusPassthroughContent` -/
def gSinglePlusPassthroughContent : Exp :=
  .alt (.act 227 (.scope (.seq (.scope (.seq (.notP (.rule R.SinglePlusPassthroughPrefix)) (.seq (.notP (.rule
    R.Space)) (.seq (.notP (.rule R.Newline)) .any)))) (.star (.scope (.seq (.notP (.scope (.seq (.rule R.Spaces)
    (.rule R.SinglePlusPassthroughPrefix)))) (.seq (.notP (.rule R.SinglePlusPassthroughPrefix)) (.seq (.notP
    (.rule R.Newline)) .any)))))))) (.act 228 (.scope (.seq (.notP (.rule R.Space)) (.seq (.notP (.rule R.Newline))
    (.seq (.notP (.rule R.SinglePlusPassthroughPrefix)) .any)))))

/-- parser.peg:1377 `TriplePlusPassthroughPrefix` -/
def gTriplePlusPassthroughPrefix : Exp :=
  .lit ['+', '+', '+']

/-- parser.peg:1379 `TriplePlusPassthrough` -/
def gTriplePlusPassthrough : Exp :=
  .act 229 (.scope (.seq (.rule R.TriplePlusPassthroughPrefix) (.seq (.rule R.TriplePlusPassthroughContent)
    (.seq (.rule R.TriplePlusPassthroughPrefix) (.notP (.rule R.Alphanum))))))

/-- parser.peg:1383 `TriplePlusPassthroughContent` -/
def gTriplePlusPassthroughContent : Exp :=
  .alt (.act 230 (.star (.scope (.seq (.notP (.rule R.TriplePlusPassthroughPrefix)) .any)))) (.act 231 (.opt
    (.scope (.seq (.notP (.rule R.Space)) (.seq (.notP (.rule R.Newline)) (.seq (.notP (.rule R.TriplePlusPassthroughPrefix))
    .any))))))

/-- parser.peg:1389 `PassthroughMacro` -/
def gPassthroughMacro : Exp :=
  .alt (.act 232 (.scope (.seq (.lit ['p', 'a', 's', 's', ':', '[']) (.seq (.star (.rule R.PassthroughMacroCharacter))
    (.lit [']']))))) (.act 233 (.scope (.seq (.lit ['p', 'a', 's', 's', ':', 'q', '[']) (.seq (.star (.alt
    (.rule R.QuotedText) (.rule R.PassthroughMacroCharacter))) (.lit [']'])))))

/-- parser.peg:1395 `PassthroughMacroCharacter` -/
def gPassthroughMacroCharacter : Exp :=
  .act 234 (.cls ⟨true, [']'], [], false, false⟩)

/-- parser.peg:1402 `Link` -/
def gLink : Exp :=
  .alt (.rule R.BareURL) (.alt (.rule R.RelativeLink) (.alt (.rule R.ExternalLink) (.rule R.EmailAddress)))

/-- parser.peg:1404 `BareURL` -/
def gBareURL : Exp :=
  .act 235 (.scope (.seq (.lit ['<']) (.seq (.rule R.LocationWithScheme) (.lit ['>']))))

/-- parser.peg:1417 `RelativeLink` -/
def gRelativeLink : Exp :=
  .alt (.act 236 (.scope (.seq (.lit ['\\']) (.seq (.lit ['l', 'i', 'n', 'k', ':']) (.seq (.rule R.Location)
    (.rule R.InlineAttributes)))))) (.act 237 (.scope (.seq (.lit ['l', 'i', 'n', 'k', ':']) (.seq (.rule
    R.Location) (.rule R.InlineAttributes)))))

/-- parser.peg:1428 `ExternalLink` -/
def gExternalLink : Exp :=
  .alt (.act 238 (.scope (.seq (.lit ['\\']) (.seq (.rule R.LocationWithScheme) (.opt (.rule R.InlineAttributes))))))
    (.act 239 (.scope (.seq (.rule R.LocationWithScheme) (.opt (.rule R.InlineAttributes)))))

/-- parser.peg:1440 `EmailAddress` -/
def gEmailAddress : Exp :=
  .act 240 (.scope (.seq (.rule R.EmailAddressLocal) (.seq (.lit ['@']) (.rule R.EmailAddressDomain))))

/-- parser.peg:1444 `EmailAddressLocal` -/
def gEmailAddressLocal : Exp :=
  .act 243 (.scope (.seq (.act 241 (.plus (.cls ⟨false, ['!', '#', '$', '%', '&', '\'', '*', '=', '?', '^',
    '_', '`', '{', '|', '}', '~', '.'], [('+', '/')], true, true⟩))) (.pred 242)))

/-- parser.peg:1457 `EmailAddressDomain` -/
def gEmailAddressDomain : Exp :=
  .act 246 (.scope (.seq (.act 244 (.scope (.seq (.plus (.cls ⟨false, [], [], true, true⟩)) (.star (.scope
    (.seq (.lit ['.']) (.plus (.cls ⟨false, ['-'], [], true, true⟩)))))))) (.pred 245)))

/-- parser.peg:1470 `ListElements` -/
def gListElements : Exp :=
  .act 247 (.scope (.seq (.rule R.ListElement) (.rule R.ExtraListElements)))

/-- parser.peg:1476 `ListElement` -/
def gListElement : Exp :=
  .alt (.rule R.OrderedListElement) (.alt (.rule R.UnorderedListElement) (.alt (.rule R.CalloutListElement)
    (.rule R.LabeledListElement)))

/-- parser.peg:1482 `ExtraListElements` -/
def gExtraListElements : Exp :=
  .act 248 (.star (.rule R.ExtraListElement))

/-- parser.peg:1486 `ExtraListElement` -/
def gExtraListElement : Exp :=
  .act 251 (.scope (.seq (.rule R.NotEOF) (.alt (.act 249 (.scope (.seq (.star (.rule R.BlankLine)) (.alt
    (.rule R.OrderedListElement) (.alt (.rule R.UnorderedListElement) (.alt (.rule R.CalloutListElement)
    (.rule R.LabeledListElement))))))) (.alt (.act 250 (.scope (.seq (.plus (.rule R.BlockAttributes)) (.alt
    (.rule R.OrderedListElement) (.alt (.rule R.UnorderedListElement) (.alt (.rule R.CalloutListElement)
    (.rule R.LabeledListElement))))))) (.alt (.rule R.ListContinuation) (.alt (.rule R.SinglelineComment)
    (.rule R.ListElementParagraphLine)))))))

/-- parser.peg:1504 `ListElementParagraphLine` -/
def gListElementParagraphLine : Exp :=
  .act 252 (.scope (.seq (.notP (.rule R.BlankLine)) (.seq (.notP (.rule R.ListContinuationMarker)) (.seq
    (.notP (.rule R.OrderedListElementPrefix)) (.seq (.notP (.rule R.UnorderedListElementPrefix)) (.seq (.notP
    (.rule R.CalloutListElementPrefix)) (.seq (.notP (.scope (.seq (.rule R.LabeledListElementTerm) (.rule
    R.LabeledListElementSeparator)))) (.seq (.notP (.rule R.BlockDelimiter)) (.seq (.rule R.ManyChars) (.rule
    R.EOL))))))))))

/-- parser.peg:1517 `ListElementContent` -/
def gListElementContent : Exp :=
  .act 254 (.scope (.seq (.plus (.act 253 (.plus (.cls ⟨true, ['\r', '\n'], [], false, false⟩)))) (.rule
    R.EOL)))

/-- parser.peg:1528 `ListContinuation` -/
def gListContinuation : Exp :=
  .act 255 (.scope (.seq (.star (.scope (.seq (.star (.rule R.Space)) (.rule R.Newline)))) (.seq (.rule R.ListContinuationMarker)
    (.opt (.rule R.ListContinuationElement)))))

/-- parser.peg:1536 `ListContinuationMarker` -/
def gListContinuationMarker : Exp :=
  .scope (.seq (.lit ['+']) (.seq (.star (.rule R.Space)) (.rule R.Newline)))

/-- parser.peg:1538 `ListContinuationElement` -/
def gListContinuationElement : Exp :=
  .act 256 (.scope (.seq (.rule R.NotEOF) (.seq (.notP (.rule R.ListElement)) (.seq (.opt (.rule R.BlockAttributes))
    (.alt (.rule R.BlankLine) (.alt (.rule R.AttributeDeclaration) (.alt (.rule R.AttributeReset) (.alt (.rule
    R.DelimitedBlock) (.alt (.rule R.ThematicBreak) (.alt (.rule R.ImageBlock) (.alt (.rule R.Table) (.alt
    (.rule R.SinglelineComment) (.rule R.ListContinuationParagraph)))))))))))))

/-- parser.peg:1560 `ListContinuationParagraph` -/
def gListContinuationParagraph : Exp :=
  .act 257 (.scope (.seq (.opt (.rule R.ParagraphStyle)) (.rule R.ListElementParagraphLine)))

/-- parser.peg:1569 `OrderedListElement` -/
def gOrderedListElement : Exp :=
  .act 258 (.scope (.seq (.rule R.OrderedListElementPrefix) (.rule R.ListElementContent)))

/-- parser.peg:1576 `OrderedListElementPrefix` -/
def gOrderedListElementPrefix : Exp :=
  .act 267 (.scope (.seq (.star (.rule R.Space)) (.seq (.alt (.act 261 (.scope (.seq (.act 259 (.plus (.lit
    ['.']))) (.pred 260)))) (.alt (.act 262 (.scope (.seq (.plus (.cls ⟨false, [], [('0', '9')], false, false⟩))
    (.lit ['.'])))) (.alt (.act 263 (.scope (.seq (.cls ⟨false, [], [('a', 'z')], false, false⟩) (.lit ['.']))))
    (.alt (.act 264 (.scope (.seq (.cls ⟨false, [], [('A', 'Z')], false, false⟩) (.lit ['.'])))) (.alt (.act
    265 (.scope (.seq (.plus (.cls ⟨false, ['i', 'v', 'x', 'd', 'l', 'c', 'm'], [], false, false⟩)) (.lit
    [')'])))) (.act 266 (.scope (.seq (.plus (.cls ⟨false, ['I', 'V', 'X', 'D', 'L', 'C', 'M'], [], false,
    false⟩)) (.lit [')']))))))))) (.rule R.Spaces))))

/-- parser.peg:1619 `UnorderedListElement` -/
def gUnorderedListElement : Exp :=
  .act 268 (.scope (.seq (.rule R.UnorderedListElementPrefix) (.seq (.opt (.rule R.UnorderedListElementCheckStyle))
    (.rule R.ListElementContent))))

/-- parser.peg:1626 `UnorderedListElementPrefix` -/
def gUnorderedListElementPrefix : Exp :=
  .act 271 (.scope (.seq (.star (.rule R.Space)) (.seq (.act 269 (.alt (.lit ['-']) (.plus (.lit ['*']))))
    (.seq (.pred 270) (.rule R.Spaces)))))

/-- parser.peg:1641 `UnorderedListElementCheckStyle` -/
def gUnorderedListElementCheckStyle : Exp :=
  .act 275 (.scope (.seq (.andP (.lit ['['])) (.seq (.alt (.act 272 (.lit ['[', ' ', ']'])) (.alt (.act 273
    (.lit ['[', '*', ']'])) (.act 274 (.lit ['[', 'x', ']'])))) (.rule R.Spaces))))

/-- parser.peg:1653 `LabeledListElement` -/
def gLabeledListElement : Exp :=
  .act 276 (.scope (.seq (.rule R.LabeledListElementTerm) (.seq (.rule R.LabeledListElementSeparator) (.rule
    R.LabeledListElementDescription))))

/-- parser.peg:1661 `LabeledListElementTerm` -/
def gLabeledListElementTerm : Exp :=
  .act 277 (.plus (.scope (.seq (.notP (.rule R.LabeledListElementSeparator)) (.seq (.notP (.rule R.EOL))
    .any))))

/-- parser.peg:1666 `LabeledListElementSeparator` -/
def gLabeledListElementSeparator : Exp :=
  .act 280 (.scope (.seq (.act 278 (.plus (.lit [':']))) (.pred 279)))

/-- parser.peg:1677 `LabeledListElementDescription` -/
def gLabeledListElementDescription : Exp :=
  .alt (.act 281 (.scope (.seq (.star (.rule R.Space)) (.seq (.rule R.EOL) (.star (.rule R.BlankLine))))))
    (.act 283 (.scope (.seq (.rule R.Spaces) (.seq (.act 282 (.plus (.cls ⟨true, ['\r', '\n'], [], false,
    false⟩))) (.rule R.EOL)))))

/-- parser.peg:1700 `Callout` -/
def gCallout : Exp :=
  .act 286 (.scope (.seq (.pred 284) (.seq (.lit ['<']) (.seq (.act 285 (.plus (.cls ⟨false, [], [('0', '9')],
    false, false⟩))) (.seq (.lit ['>']) (.seq (.star (.rule R.Space)) (.andP (.alt (.rule R.EOL) (.rule R.Callout)))))))))

/-- parser.peg:1709 `CalloutListElement` -/
def gCalloutListElement : Exp :=
  .act 287 (.scope (.seq (.rule R.CalloutListElementPrefix) (.rule R.ListElementContent)))

/-- parser.peg:1715 `CalloutListElementPrefix` -/
def gCalloutListElementPrefix : Exp :=
  .act 289 (.scope (.seq (.lit ['<']) (.seq (.act 288 (.plus (.cls ⟨false, [], [('0', '9')], false, false⟩)))
    (.seq (.lit ['>']) (.rule R.Spaces)))))

/-- parser.peg:1724 `ParagraphStyle` -/
def gParagraphStyle : Exp :=
  .act 297 (.scope (.seq (.pred 290) (.alt (.act 291 (.lit ['T', 'I', 'P', ':', ' '])) (.alt (.act 292 (.lit
    ['N', 'O', 'T', 'E', ':', ' '])) (.alt (.act 293 (.lit ['I', 'M', 'P', 'O', 'R', 'T', 'A', 'N', 'T',
    ':', ' '])) (.alt (.act 294 (.lit ['W', 'A', 'R', 'N', 'I', 'N', 'G', ':', ' '])) (.alt (.act 295 (.lit
    ['C', 'A', 'U', 'T', 'I', 'O', 'N', ':', ' '])) (.act 296 (.andP (.rule R.Spaces))))))))))

/-- parser.peg:1744 `ShortcutParagraph` -/
def gShortcutParagraph : Exp :=
  .act 300 (.scope (.seq (.andP (.scope (.seq (.rule R.Alphanum) (.notP (.scope (.seq (.alt (.lit ['.'])
    (.lit [')'])) (.rule R.Spaces))))))) (.seq (.opt (.rule R.ParagraphStyle)) (.seq (.rule R.ParagraphRawLine)
    (.seq (.pred 298) (.star (.act 299 (.scope (.seq (.rule R.NotEOF) (.seq (.notP (.rule R.BlankLine)) (.seq
    (.notP (.rule R.BlockAttributes)) (.seq (.notP (.rule R.BlockDelimiter)) (.seq (.notP (.rule R.ListContinuationMarker))
    (.alt (.rule R.SinglelineComment) (.rule R.ParagraphRawLine)))))))))))))))

/-- parser.peg:1769 `Paragraph` -/
def gParagraph : Exp :=
  .act 302 (.scope (.seq (.opt (.rule R.ParagraphStyle)) (.seq (.rule R.ParagraphRawLine) (.star (.act 301
    (.scope (.seq (.rule R.NotEOF) (.seq (.notP (.rule R.BlankLine)) (.seq (.notP (.rule R.BlockAttributes))
    (.alt (.rule R.SinglelineComment) (.rule R.ParagraphRawLine)))))))))))

/-- parser.peg:1783 `ParagraphRawLine` -/
def gParagraphRawLine : Exp :=
  .act 304 (.scope (.seq (.rule R.ManyChars) (.seq (.pred 303) (.rule R.EOL))))

/-- parser.peg:1795 `QuotedText` -/
def gQuotedText : Exp :=
  .alt (.rule R.EscapedQuotedText) (.rule R.UnescapedQuotedText)

/-- parser.peg:1797 `EscapedQuotedText` -/
def gEscapedQuotedText : Exp :=
  .act 306 (.scope (.seq (.opt (.act 305 (.rule R.LongHandAttributes))) (.seq (.andP (.lit ['\\'])) (.alt
    (.rule R.EscapedBoldText) (.alt (.rule R.EscapedItalicText) (.alt (.rule R.EscapedMonospaceText) (.alt
    (.rule R.EscapedMarkedText) (.alt (.rule R.EscapedSubscriptText) (.rule R.EscapedSuperscriptText)))))))))

/-- parser.peg:1813 `UnescapedQuotedText` -/
def gUnescapedQuotedText : Exp :=
  .act 307 (.scope (.seq (.opt (.rule R.LongHandAttributes)) (.alt (.rule R.SingleQuotedText) (.rule R.DoubleQuotedText))))

/-- parser.peg:1819 `SingleQuotedTextMarker` -/
def gSingleQuotedTextMarker : Exp :=
  .alt (.scope (.seq (.lit ['*']) (.notP (.lit ['*'])))) (.alt (.scope (.seq (.lit ['_']) (.notP (.lit ['_']))))
    (.alt (.scope (.seq (.lit ['#']) (.notP (.lit ['#'])))) (.scope (.seq (.lit ['`']) (.notP (.lit ['`']))))))

/-- parser.peg:1821 `DoubleQuotedTextPrefix` -/
def gDoubleQuotedTextPrefix : Exp :=
  .alt (.lit ['*', '*']) (.alt (.lit ['_', '_']) (.alt (.lit ['`', '`']) (.alt (.lit ['#', '#']) (.alt (.lit
    ['^']) (.lit ['~'])))))

/-- parser.peg:1823 `SingleQuotedText` -/
def gSingleQuotedText : Exp :=
  .alt (.rule R.SingleQuoteBoldText) (.alt (.rule R.SingleQuoteItalicText) (.alt (.rule R.SingleQuoteMonospaceText)
    (.alt (.rule R.SingleQuoteMarkedText) (.alt (.rule R.SubscriptText) (.rule R.SuperscriptText)))))

/-- parser.peg:1831 `DoubleQuotedText` -/
def gDoubleQuotedText : Exp :=
  .alt (.rule R.DoubleQuoteBoldText) (.alt (.rule R.DoubleQuoteItalicText) (.alt (.rule R.DoubleQuoteMonospaceText)
    (.rule R.DoubleQuoteMarkedText)))

/-- parser.peg:1837 `SubscriptOrSuperscriptPrefix` -/
def gSubscriptOrSuperscriptPrefix : Exp :=
  .alt (.lit ['^']) (.act 308 (.lit ['~']))

/-- parser.peg:1841 `OneOrMoreBackslashes` -/
def gOneOrMoreBackslashes : Exp :=
  .act 309 (.plus (.lit ['\\']))

/-- parser.peg:1845 `TwoOrMoreBackslashes` -/
def gTwoOrMoreBackslashes : Exp :=
  .act 310 (.scope (.seq (.lit ['\\', '\\']) (.star (.lit ['\\']))))

/-- parser.peg:1849 `QuotedTextElement` -/
def gQuotedTextElement : Exp :=
  .alt (.rule R.InlineText) (.alt (.rule R.Spaces) (.alt (.rule R.Replacement) (.alt (.rule R.TypographicQuote)
    (.alt (.rule R.Punctuation) (.alt (.rule R.AttributeReference) (.alt (.rule R.SingleNewline) (.alt (.rule
    R.QuotedText) (.alt (.rule R.InlineMacro) (.alt (.rule R.SpecialCharacter) (.alt (.rule R.ElementPlaceHolder)
    (.rule R.AnyChar)))))))))))

/-- parser.peg:1867 `BoldTextDelimiter` -/
def gBoldTextDelimiter : Exp :=
  .lit ['*']

/-- parser.peg:1872 `DoubleQuoteBoldTextStartDelimiter` -/
def gDoubleQuoteBoldTextStartDelimiter : Exp :=
  .lit ['*', '*']

/-- parser.peg:1874 `DoubleQuoteBoldTextEndDelimiter` -/
def gDoubleQuoteBoldTextEndDelimiter : Exp :=
  .lit ['*', '*']

/-- parser.peg:1876 `DoubleQuoteBoldText` -/
def gDoubleQuoteBoldText : Exp :=
  .act 311 (.scope (.seq (.rule R.DoubleQuoteBoldTextStartDelimiter) (.seq (.rule R.DoubleQuoteBoldTextElements)
    (.rule R.DoubleQuoteBoldTextEndDelimiter))))

/-- parser.peg:1883 `DoubleQuoteBoldTextElements` -/
def gDoubleQuoteBoldTextElements : Exp :=
  .plus (.rule R.DoubleQuoteBoldTextElement)

/-- parser.peg:1885 `DoubleQuoteBoldTextElement` -/
def gDoubleQuoteBoldTextElement : Exp :=
  .act 312 (.scope (.seq (.rule R.NotEOF) (.seq (.notP (.rule R.DoubleQuoteBoldTextEndDelimiter)) (.rule
    R.QuotedTextElement))))

/-- parser.peg:1896 `SingleQuoteBoldTextStartDelimiter` -/
def gSingleQuoteBoldTextStartDelimiter : Exp :=
  .scope (.seq (.lit ['*']) (.seq (.pred 313) (.andP (.notP (.lit ['*'])))))

/-- parser.peg:1904 `SingleQuoteBoldTextEndDelimiter` -/
def gSingleQuoteBoldTextEndDelimiter : Exp :=
  .scope (.seq (.lit ['*']) (.seq (.notP (.lit ['*'])) (.seq (.pred 314) (.andP (.notP (.rule R.Alphanum))))))

/-- parser.peg:1913 `SingleQuoteBoldText` -/
def gSingleQuoteBoldText : Exp :=
  .act 315 (.scope (.seq (.rule R.SingleQuoteBoldTextStartDelimiter) (.seq (.rule R.SingleQuoteBoldTextElements)
    (.rule R.SingleQuoteBoldTextEndDelimiter))))

/-- parser.peg:1920 `SingleQuoteBoldTextElements` -/
def gSingleQuoteBoldTextElements : Exp :=
  .act 317 (.scope (.seq (.notP (.rule R.Space)) (.seq (.plus (.rule R.SingleQuoteBoldTextElement)) (.pred
    316))))

/-- parser.peg:1929 `SingleQuoteBoldTextElement` -/
def gSingleQuoteBoldTextElement : Exp :=
  .act 318 (.scope (.seq (.rule R.NotEOF) (.seq (.notP (.rule R.SingleQuoteBoldTextEndDelimiter)) (.rule
    R.QuotedTextElement))))

/-- parser.peg:1937 `EscapedBoldText` -/
def gEscapedBoldText : Exp :=
  .alt (.act 319 (.scope (.seq (.rule R.TwoOrMoreBackslashes) (.seq (.lit ['*', '*']) (.seq (.rule R.DoubleQuoteBoldTextElements)
    (.lit ['*', '*'])))))) (.alt (.act 320 (.scope (.seq (.rule R.OneOrMoreBackslashes) (.seq (.lit ['*',
    '*']) (.seq (.rule R.SingleQuoteBoldTextElements) (.lit ['*'])))))) (.act 321 (.scope (.seq (.rule R.OneOrMoreBackslashes)
    (.seq (.lit ['*']) (.seq (.rule R.SingleQuoteBoldTextElements) (.lit ['*'])))))))

/-- parser.peg:1956 `ItalicTextDelimiter` -/
def gItalicTextDelimiter : Exp :=
  .lit ['_']

/-- parser.peg:1961 `DoubleQuoteItalicTextStartDelimiter` -/
def gDoubleQuoteItalicTextStartDelimiter : Exp :=
  .lit ['_', '_']

/-- parser.peg:1963 `DoubleQuoteItalicTextEndDelimiter` -/
def gDoubleQuoteItalicTextEndDelimiter : Exp :=
  .lit ['_', '_']

/-- parser.peg:1965 `DoubleQuoteItalicText` -/
def gDoubleQuoteItalicText : Exp :=
  .act 322 (.scope (.seq (.rule R.DoubleQuoteItalicTextStartDelimiter) (.seq (.rule R.DoubleQuoteItalicTextElements)
    (.rule R.DoubleQuoteItalicTextEndDelimiter))))

/-- parser.peg:1972 `DoubleQuoteItalicTextElements` -/
def gDoubleQuoteItalicTextElements : Exp :=
  .plus (.rule R.DoubleQuoteItalicTextElement)

/-- parser.peg:1974 `DoubleQuoteItalicTextElement` -/
def gDoubleQuoteItalicTextElement : Exp :=
  .act 323 (.scope (.seq (.rule R.NotEOF) (.seq (.notP (.rule R.DoubleQuoteItalicTextEndDelimiter)) (.rule
    R.QuotedTextElement))))

/-- parser.peg:1985 `SingleQuoteItalicTextStartDelimiter` -/
def gSingleQuoteItalicTextStartDelimiter : Exp :=
  .scope (.seq (.lit ['_']) (.seq (.pred 324) (.andP (.notP (.lit ['_'])))))

/-- parser.peg:1994 `SingleQuoteItalicTextEndDelimiter` -/
def gSingleQuoteItalicTextEndDelimiter : Exp :=
  .scope (.seq (.lit ['_']) (.seq (.notP (.lit ['_'])) (.seq (.pred 325) (.andP (.notP (.rule R.Alphanum))))))

/-- parser.peg:2003 `SingleQuoteItalicText` -/
def gSingleQuoteItalicText : Exp :=
  .act 326 (.scope (.seq (.rule R.SingleQuoteItalicTextStartDelimiter) (.seq (.rule R.SingleQuoteItalicTextElements)
    (.rule R.SingleQuoteItalicTextEndDelimiter))))

/-- parser.peg:2010 `SingleQuoteItalicTextElements` -/
def gSingleQuoteItalicTextElements : Exp :=
  .act 328 (.scope (.seq (.notP (.rule R.Space)) (.seq (.plus (.rule R.SingleQuoteItalicTextElement)) (.pred
    327))))

/-- parser.peg:2019 `SingleQuoteItalicTextElement` -/
def gSingleQuoteItalicTextElement : Exp :=
  .act 329 (.scope (.seq (.rule R.NotEOF) (.seq (.notP (.rule R.SingleQuoteItalicTextEndDelimiter)) (.rule
    R.QuotedTextElement))))

/-- parser.peg:2027 `EscapedItalicText` -/
def gEscapedItalicText : Exp :=
  .alt (.act 330 (.scope (.seq (.rule R.TwoOrMoreBackslashes) (.seq (.lit ['_', '_']) (.seq (.rule R.DoubleQuoteItalicTextElements)
    (.lit ['_', '_'])))))) (.alt (.act 331 (.scope (.seq (.rule R.OneOrMoreBackslashes) (.seq (.lit ['_',
    '_']) (.seq (.rule R.SingleQuoteItalicTextElements) (.lit ['_'])))))) (.act 332 (.scope (.seq (.rule
    R.OneOrMoreBackslashes) (.seq (.lit ['_']) (.seq (.rule R.SingleQuoteItalicTextElements) (.lit ['_'])))))))

/-- parser.peg:2046 `MonospaceTextDelimiter` -/
def gMonospaceTextDelimiter : Exp :=
  .lit ['`']

/-- parser.peg:2051 `DoubleQuoteMonospaceTextStartDelimiter` -/
def gDoubleQuoteMonospaceTextStartDelimiter : Exp :=
  .lit ['`', '`']

/-- parser.peg:2053 `DoubleQuoteMonospaceTextEndDelimiter` -/
def gDoubleQuoteMonospaceTextEndDelimiter : Exp :=
  .lit ['`', '`']

/-- parser.peg:2055 `DoubleQuoteMonospaceText` -/
def gDoubleQuoteMonospaceText : Exp :=
  .act 333 (.scope (.seq (.rule R.DoubleQuoteMonospaceTextStartDelimiter) (.seq (.rule R.DoubleQuoteMonospaceTextElements)
    (.rule R.DoubleQuoteMonospaceTextEndDelimiter))))

/-- parser.peg:2062 `DoubleQuoteMonospaceTextElements` -/
def gDoubleQuoteMonospaceTextElements : Exp :=
  .plus (.rule R.DoubleQuoteMonospaceTextElement)

/-- parser.peg:2064 `DoubleQuoteMonospaceTextElement` -/
def gDoubleQuoteMonospaceTextElement : Exp :=
  .act 334 (.scope (.seq (.rule R.NotEOF) (.seq (.notP (.rule R.DoubleQuoteMonospaceTextEndDelimiter)) (.rule
    R.QuotedTextElement))))

/-- parser.peg:2077 `SingleQuoteMonospaceTextStartDelimiter` -/
def gSingleQuoteMonospaceTextStartDelimiter : Exp :=
  .scope (.seq (.lit ['`']) (.seq (.pred 335) (.andP (.notP (.lit ['`'])))))

/-- parser.peg:2085 `SingleQuoteMonospaceTextEndDelimiter` -/
def gSingleQuoteMonospaceTextEndDelimiter : Exp :=
  .scope (.seq (.notP (.rule R.QuotationMark)) (.seq (.lit ['`']) (.seq (.pred 336) (.andP (.notP (.rule
    R.Alphanum))))))

/-- parser.peg:2095 `SingleQuoteMonospaceText` -/
def gSingleQuoteMonospaceText : Exp :=
  .act 337 (.scope (.seq (.rule R.SingleQuoteMonospaceTextStartDelimiter) (.seq (.rule R.SingleQuoteMonospaceTextElements)
    (.rule R.SingleQuoteMonospaceTextEndDelimiter))))

/-- parser.peg:2102 `SingleQuoteMonospaceTextElements` -/
def gSingleQuoteMonospaceTextElements : Exp :=
  .act 339 (.scope (.seq (.notP (.rule R.Space)) (.seq (.plus (.rule R.SingleQuoteMonospaceTextElement))
    (.pred 338))))

/-- parser.peg:2111 `SingleQuoteMonospaceTextElement` -/
def gSingleQuoteMonospaceTextElement : Exp :=
  .act 340 (.scope (.seq (.rule R.NotEOF) (.seq (.notP (.rule R.SingleQuoteMonospaceTextEndDelimiter)) (.rule
    R.QuotedTextElement))))

/-- parser.peg:2119 `EscapedMonospaceText` -/
def gEscapedMonospaceText : Exp :=
  .alt (.act 341 (.scope (.seq (.rule R.TwoOrMoreBackslashes) (.seq (.lit ['`', '`']) (.seq (.rule R.DoubleQuoteMonospaceTextElements)
    (.lit ['`', '`'])))))) (.alt (.act 342 (.scope (.seq (.rule R.OneOrMoreBackslashes) (.seq (.lit ['`',
    '`']) (.seq (.rule R.SingleQuoteMonospaceTextElements) (.lit ['`'])))))) (.act 343 (.scope (.seq (.rule
    R.OneOrMoreBackslashes) (.seq (.lit ['`']) (.seq (.rule R.SingleQuoteMonospaceTextElements) (.lit ['`'])))))))

/-- parser.peg:2138 `MarkedTextDelimiter` -/
def gMarkedTextDelimiter : Exp :=
  .lit ['#']

/-- parser.peg:2143 `DoubleQuoteMarkedTextStartDelimiter` -/
def gDoubleQuoteMarkedTextStartDelimiter : Exp :=
  .lit ['#', '#']

/-- parser.peg:2145 `DoubleQuoteMarkedTextEndDelimiter` -/
def gDoubleQuoteMarkedTextEndDelimiter : Exp :=
  .lit ['#', '#']

/-- parser.peg:2147 `DoubleQuoteMarkedText` -/
def gDoubleQuoteMarkedText : Exp :=
  .act 344 (.scope (.seq (.rule R.DoubleQuoteMarkedTextStartDelimiter) (.seq (.rule R.DoubleQuoteMarkedTextElements)
    (.rule R.DoubleQuoteMarkedTextEndDelimiter))))

/-- parser.peg:2154 `DoubleQuoteMarkedTextElements` -/
def gDoubleQuoteMarkedTextElements : Exp :=
  .star (.rule R.DoubleQuoteMarkedTextElement)

/-- parser.peg:2156 `DoubleQuoteMarkedTextElement` -/
def gDoubleQuoteMarkedTextElement : Exp :=
  .act 345 (.scope (.seq (.rule R.NotEOF) (.seq (.notP (.rule R.DoubleQuoteMarkedTextEndDelimiter)) (.rule
    R.QuotedTextElement))))

/-- parser.peg:2167 `SingleQuoteMarkedTextStartDelimiter` -/
def gSingleQuoteMarkedTextStartDelimiter : Exp :=
  .scope (.seq (.lit ['#']) (.seq (.pred 346) (.andP (.notP (.lit ['#'])))))

/-- parser.peg:2175 `SingleQuoteMarkedTextEndDelimiter` -/
def gSingleQuoteMarkedTextEndDelimiter : Exp :=
  .scope (.seq (.lit ['#']) (.seq (.notP (.lit ['#'])) (.seq (.pred 347) (.andP (.notP (.rule R.Alphanum))))))

/-- parser.peg:2184 `SingleQuoteMarkedText` -/
def gSingleQuoteMarkedText : Exp :=
  .act 348 (.scope (.seq (.rule R.SingleQuoteMarkedTextStartDelimiter) (.seq (.rule R.SingleQuoteMarkedTextElements)
    (.rule R.SingleQuoteMarkedTextEndDelimiter))))

/-- parser.peg:2191 `SingleQuoteMarkedTextElements` -/
def gSingleQuoteMarkedTextElements : Exp :=
  .act 350 (.scope (.seq (.notP (.rule R.Space)) (.seq (.plus (.rule R.SingleQuoteMarkedTextElement)) (.pred
    349))))

/-- parser.peg:2200 `SingleQuoteMarkedTextElement` -/
def gSingleQuoteMarkedTextElement : Exp :=
  .act 351 (.scope (.seq (.rule R.NotEOF) (.seq (.notP (.rule R.SingleQuoteMarkedTextEndDelimiter)) (.rule
    R.QuotedTextElement))))

/-- parser.peg:2208 `EscapedMarkedText` -/
def gEscapedMarkedText : Exp :=
  .alt (.act 352 (.scope (.seq (.rule R.TwoOrMoreBackslashes) (.seq (.lit ['#', '#']) (.seq (.rule R.DoubleQuoteMarkedTextElements)
    (.lit ['#', '#'])))))) (.alt (.act 353 (.scope (.seq (.rule R.OneOrMoreBackslashes) (.seq (.lit ['#',
    '#']) (.seq (.rule R.SingleQuoteMarkedTextElements) (.lit ['#'])))))) (.act 354 (.scope (.seq (.rule
    R.OneOrMoreBackslashes) (.seq (.lit ['#']) (.seq (.rule R.SingleQuoteMarkedTextElements) (.lit ['#'])))))))

/-- parser.peg:2226 `SubscriptText` -/
def gSubscriptText : Exp :=
  .act 355 (.scope (.seq (.rule R.SubscriptTextDelimiter) (.seq (.rule R.SubscriptTextElement) (.rule R.SubscriptTextDelimiter))))

/-- parser.peg:2233 `SubscriptTextDelimiter` -/
def gSubscriptTextDelimiter : Exp :=
  .lit ['~']

/-- parser.peg:2235 `SubscriptTextElement` -/
def gSubscriptTextElement : Exp :=
  .alt (.rule R.QuotedText) (.rule R.NonSubscriptText)

/-- parser.peg:2237 `NonSubscriptText` -/
def gNonSubscriptText : Exp :=
  .act 356 (.plus (.cls ⟨true, ['\r', '\n', ' ', '~'], [], false, false⟩))

/-- parser.peg:2241 `EscapedSubscriptText` -/
def gEscapedSubscriptText : Exp :=
  .act 357 (.scope (.seq (.rule R.OneOrMoreBackslashes) (.seq (.rule R.SubscriptTextDelimiter) (.seq (.rule
    R.SubscriptTextElement) (.rule R.SubscriptTextDelimiter)))))

/-- parser.peg:2253 `SuperscriptText` -/
def gSuperscriptText : Exp :=
  .act 358 (.scope (.seq (.rule R.SuperscriptTextDelimiter) (.seq (.rule R.SuperscriptTextElement) (.rule
    R.SuperscriptTextDelimiter))))

/-- parser.peg:2260 `SuperscriptTextDelimiter` -/
def gSuperscriptTextDelimiter : Exp :=
  .lit ['^']

/-- parser.peg:2262 `SuperscriptTextElement` -/
def gSuperscriptTextElement : Exp :=
  .alt (.rule R.QuotedText) (.rule R.NonSuperscriptText)

/-- parser.peg:2264 `NonSuperscriptText` -/
def gNonSuperscriptText : Exp :=
  .act 359 (.plus (.cls ⟨true, ['\r', '\n', ' ', '^'], [], false, false⟩))

/-- parser.peg:2268 `EscapedSuperscriptText` -/
def gEscapedSuperscriptText : Exp :=
  .act 360 (.scope (.seq (.rule R.OneOrMoreBackslashes) (.seq (.rule R.SuperscriptTextDelimiter) (.seq (.rule
    R.SuperscriptTextElement) (.rule R.SuperscriptTextDelimiter)))))

/-- parser.peg:2281 `Section` -/
def gSection : Exp :=
  .act 364 (.scope (.seq (.pred 361) (.seq (.act 362 (.plus (.lit ['=']))) (.seq (.pred 363) (.seq (.rule
    R.Spaces) (.seq (.rule R.SectionTitle) (.rule R.EOL)))))))

/-- parser.peg:2297 `SectionTitle` -/
def gSectionTitle : Exp :=
  .act 366 (.scope (.seq (.state 365) (.plus (.rule R.SectionTitleElement))))

/-- parser.peg:2307 `SectionTitleElement` -/
def gSectionTitleElement : Exp :=
  .act 367 (.scope (.seq (.notP (.rule R.EOL)) (.alt (.rule R.InlineText) (.alt (.rule R.Spaces) (.alt (.rule
    R.TypographicQuote) (.alt (.rule R.Replacement) (.alt (.rule R.Punctuation) (.alt (.rule R.Quote) (.alt
    (.rule R.InlinePassthrough) (.alt (.rule R.Link) (.alt (.rule R.SpecialCharacter) (.alt (.rule R.InlineIcon)
    (.alt (.rule R.AttributeReference) (.alt (.rule R.ElementPlaceHolder) (.alt (.rule R.SectionTitleLegacyID)
    (.alt (.rule R.InlineAnchor) (.alt (.rule R.InlineFootnote) (.rule R.AnyChar))))))))))))))))))

/-- parser.peg:2330 `SectionTitleLegacyID` -/
def gSectionTitleLegacyID : Exp :=
  .act 369 (.scope (.seq (.pred 368) (.seq (.rule R.LegacyElementID) (.seq (.star (.rule R.Space)) (.andP
    (.rule R.EOL))))))

/-- parser.peg:2345 `NormalGroup` -/
def gNormalGroup : Exp :=
  .act 371 (.scope (.seq (.plus (.act 370 (.scope (.seq (.rule R.NotEOF) (.alt (.rule R.InlineText) (.alt
    (.rule R.Spaces) (.alt (.rule R.Replacement) (.alt (.rule R.TypographicQuote) (.alt (.rule R.Punctuation)
    (.alt (.rule R.Newline) (.alt (.rule R.AttributeReference) (.alt (.rule R.Quote) (.alt (.rule R.InlineMacro)
    (.alt (.rule R.Callout) (.alt (.rule R.SpecialCharacter) (.alt (.rule R.LineBreak) (.alt (.rule R.InlinePassthrough)
    (.alt (.rule R.ElementPlaceHolder) (.rule R.AnyChar))))))))))))))))))) (.rule R.EOF)))

/-- parser.peg:2373 `AttributeStructuredValue` -/
def gAttributeStructuredValue : Exp :=
  .act 372 (.scope (.seq (.plus (.rule R.AttributeStructuredValueElement)) (.rule R.EOF)))

/-- parser.peg:2378 `AttributeStructuredValueElement` -/
def gAttributeStructuredValueElement : Exp :=
  .act 373 (.scope (.seq (.rule R.NotEOF) (.alt (.rule R.InlineText) (.alt (.rule R.Space) (.alt (.rule R.Replacement)
    (.alt (.rule R.Punctuation) (.alt (.rule R.Quote) (.alt (.rule R.InlineMacro) (.alt (.rule R.SpecialCharacter)
    (.alt (.rule R.ElementPlaceHolder) (.alt (.rule R.Newline) (.rule R.AnyChar))))))))))))

/-- parser.peg:2397 `InlineMacro` -/
def gInlineMacro : Exp :=
  .act 375 (.scope (.seq (.pred 374) (.alt (.rule R.InlineIcon) (.alt (.rule R.InlineImage) (.alt (.rule
    R.Link) (.alt (.rule R.InlinePassthrough) (.alt (.rule R.InlineFootnote) (.alt (.rule R.CrossReference)
    (.alt (.rule R.InlineUserMacro) (.alt (.rule R.InlineAnchor) (.alt (.rule R.ConcealedIndexTerm) (.alt
    (.rule R.IndexTerm) (.alt (.rule R.InlineButton) (.rule R.InlineMenu))))))))))))))

/-- parser.peg:2418 `InlinePassthrough` -/
def gInlinePassthrough : Exp :=
  .act 377 (.scope (.seq (.pred 376) (.alt (.rule R.TriplePlusPassthrough) (.alt (.rule R.SinglePlusPassthrough)
    (.rule R.PassthroughMacro)))))

/-- parser.peg:2429 `Quote` -/
def gQuote : Exp :=
  .scope (.seq (.pred 378) (.rule R.QuotedText))

/-- parser.peg:2436 `Replacement` -/
def gReplacement : Exp :=
  .act 380 (.scope (.seq (.pred 379) (.rule R.Symbol)))

/-- parser.peg:2447 `SpecialCharacter` -/
def gSpecialCharacter : Exp :=
  .act 383 (.scope (.seq (.pred 381) (.act 382 (.alt (.lit ['<']) (.alt (.lit ['>']) (.lit ['&']))))))

/-- parser.peg:2462 `SinglelineComment` -/
def gSinglelineComment : Exp :=
  .act 384 (.scope (.seq (.rule R.SinglelineCommentDelimiter) (.seq (.rule R.SinglelineCommentContent) (.rule
    R.EOL))))

/-- parser.peg:2467 `SinglelineCommentDelimiter` -/
def gSinglelineCommentDelimiter : Exp :=
  .scope (.seq (.lit ['/', '/']) (.notP (.lit ['/', '/'])))

/-- parser.peg:2469 `SinglelineCommentContent` -/
def gSinglelineCommentContent : Exp :=
  .rule R.AnyChars

/-- parser.peg:2478 `TypographicQuote` -/
def gTypographicQuote : Exp :=
  .alt (.act 385 (.scope (.seq (.lit ['\\', '\'']) (.andP (.cls ⟨false, [], [], true, false⟩))))) (.act 388
    (.scope (.seq (.pred 386) (.seq (.pred 387) (.seq (.lit ['\'']) (.andP (.cls ⟨false, [], [], true, false⟩)))))))

/-- parser.peg:2497 `Symbol` -/
def gSymbol : Exp :=
  .alt (.act 389 (.scope (.seq (.lit ['\\']) (.alt (.rule R.QuotationMark) (.alt (.rule R.Copyright) (.alt
    (.rule R.Trademark) (.alt (.rule R.Registered) (.alt (.rule R.Ellipsis) (.alt (.rule R.SingleRightArrow)
    (.alt (.rule R.Mdash) (.alt (.rule R.SingleLeftArrow) (.alt (.rule R.DoubleRightArrow) (.rule R.DoubleLeftArrow)))))))))))))
    (.alt (.rule R.QuotationMark) (.alt (.rule R.Copyright) (.alt (.rule R.Trademark) (.alt (.rule R.Registered)
    (.alt (.rule R.Ellipsis) (.alt (.rule R.Mdash) (.alt (.rule R.SingleRightArrow) (.alt (.rule R.SingleLeftArrow)
    (.alt (.rule R.DoubleRightArrow) (.rule R.DoubleLeftArrow))))))))))

/-- parser.peg:2514 `QuotationMark` -/
def gQuotationMark : Exp :=
  .alt (.act 390 (.scope (.seq (.lit ['`', '"']) (.notP (.rule R.SingleQuoteMonospaceTextStartDelimiter)))))
    (.alt (.act 391 (.scope (.seq (.lit ['"', '`']) (.notP (.rule R.SingleQuoteMonospaceTextEndDelimiter)))))
    (.alt (.act 392 (.scope (.seq (.lit ['`', '\'']) (.notP (.rule R.SingleQuoteMonospaceTextStartDelimiter)))))
    (.act 393 (.scope (.seq (.lit ['\'', '`']) (.notP (.rule R.SingleQuoteMonospaceTextEndDelimiter)))))))

/-- parser.peg:2528 `Copyright` -/
def gCopyright : Exp :=
  .act 394 (.lit ['(', 'C', ')'])

/-- parser.peg:2532 `Trademark` -/
def gTrademark : Exp :=
  .act 395 (.lit ['(', 'T', 'M', ')'])

/-- parser.peg:2536 `Registered` -/
def gRegistered : Exp :=
  .act 396 (.lit ['(', 'R', ')'])

/-- parser.peg:2540 `Ellipsis` -/
def gEllipsis : Exp :=
  .act 397 (.lit ['.', '.', '.'])

/-- parser.peg:2544 `Mdash` -/
def gMdash : Exp :=
  .alt (.act 399 (.scope (.seq (.lit ['-', '-']) (.seq (.pred 398) (.alt (.rule R.Space) (.andP (.rule R.EOL)))))))
    (.act 401 (.scope (.seq (.lit ['-', '-']) (.seq (.pred 400) (.andP (.alt (.rule R.Alphanum) (.rule R.EOL)))))))

/-- parser.peg:2568 `SingleRightArrow` -/
def gSingleRightArrow : Exp :=
  .act 402 (.lit ['-', '>'])

/-- parser.peg:2572 `SingleLeftArrow` -/
def gSingleLeftArrow : Exp :=
  .act 403 (.lit ['<', '-'])

/-- parser.peg:2576 `DoubleRightArrow` -/
def gDoubleRightArrow : Exp :=
  .act 404 (.lit ['=', '>'])

/-- parser.peg:2580 `DoubleLeftArrow` -/
def gDoubleLeftArrow : Exp :=
  .act 405 (.lit ['<', '='])

/-- parser.peg:2587 `Table` -/
def gTable : Exp :=
  .act 406 (.scope (.seq (.rule R.TableStartDelimiter) (.seq (.star (.alt (.rule R.BlankLine) (.rule R.TableLine)))
    (.rule R.TableEndDelimiter))))

/-- parser.peg:2594 `TableDelimiter` -/
def gTableDelimiter : Exp :=
  .scope (.seq (.lit ['|', '=', '=', '=']) (.seq (.star (.rule R.Space)) (.rule R.EOL)))

/-- parser.peg:2596 `TableStartDelimiter` -/
def gTableStartDelimiter : Exp :=
  .rule R.TableDelimiter

/-- parser.peg:2598 `TableEndDelimiter` -/
def gTableEndDelimiter : Exp :=
  .alt (.rule R.TableDelimiter) (.rule R.EOF)

/-- parser.peg:2600 `TableLine` -/
def gTableLine : Exp :=
  .act 408 (.scope (.seq (.notP (.rule R.TableEndDelimiter)) (.alt (.act 407 (.alt (.rule R.InlineTableCells)
    (.rule R.MultilineTableCells))) (.rule R.BlankLine))))

/-- parser.peg:2611 `InlineTableCells` -/
def gInlineTableCells : Exp :=
  .act 409 (.scope (.seq (.plus (.rule R.InlineTableCell)) (.rule R.EOL)))

/-- parser.peg:2615 `InlineTableCell` -/
def gInlineTableCell : Exp :=
  .act 410 (.scope (.seq (.lit ['|']) (.seq (.star (.rule R.Space)) (.rule R.InlineTableCellContent))))

/-- parser.peg:2621 `InlineTableCellContent` -/
def gInlineTableCellContent : Exp :=
  .act 412 (.act 411 (.star (.cls ⟨true, ['|', '\r', '\n'], [], false, false⟩)))

/-- parser.peg:2628 `MultilineTableCells` -/
def gMultilineTableCells : Exp :=
  .act 413 (.plus (.rule R.MultilineTableCell))

/-- parser.peg:2632 `MultilineTableCell` -/
def gMultilineTableCell : Exp :=
  .act 414 (.scope (.seq (.notP (.rule R.TableEndDelimiter)) (.seq (.notP (.rule R.BlankLine)) (.seq (.opt
    (.rule R.TableCellFormat)) (.seq (.lit ['|']) (.seq (.star (.rule R.Space)) (.seq (.opt (.rule R.Newline))
    (.rule R.MultilineTableCellContent))))))))

/-- parser.peg:2640 `MultilineTableCellContent` -/
def gMultilineTableCellContent : Exp :=
  .star (.act 416 (.scope (.seq (.notP (.rule R.TableEndDelimiter)) (.seq (.notP (.rule R.BlankLine)) (.seq
    (.notP (.scope (.seq (.opt (.rule R.TableCellFormat)) (.lit ['|'])))) (.seq (.act 415 (.star (.cls ⟨true,
    ['|', '\r', '\n'], [], false, false⟩))) (.opt (.rule R.EOL))))))))

/-- parser.peg:2652 `TableCellFormat` -/
def gTableCellFormat : Exp :=
  .act 417 (.star (.cls ⟨true, [' ', '|', '\r', '\n'], [], false, false⟩))

/-- parser.peg:2657 `TableColumnsAttribute` -/
def gTableColumnsAttribute : Exp :=
  .act 418 (.scope (.seq (.star (.rule R.Column)) (.rule R.EOF)))

/-- parser.peg:2661 `Column` -/
def gColumn : Exp :=
  .act 429 (.scope (.seq (.rule R.NotEOF) (.seq (.opt (.act 419 (.scope (.seq (.rule R.Integer) (.lit ['*'])))))
    (.seq (.opt (.alt (.act 420 (.lit ['<'])) (.alt (.act 421 (.lit ['>'])) (.act 422 (.lit ['^']))))) (.seq
    (.opt (.alt (.act 423 (.lit ['.', '<'])) (.alt (.act 424 (.lit ['.', '>'])) (.act 425 (.lit ['.', '^'])))))
    (.seq (.opt (.alt (.rule R.Integer) (.act 426 (.lit ['~'])))) (.seq (.opt (.act 427 (.cls ⟨false, ['a',
    'd', 'e', 'h', 'l', 'm', 's'], [], false, false⟩))) (.seq (.opt (.lit [','])) (.pred 428)))))))))

/-- parser.peg:2697 `ThematicBreak` -/
def gThematicBreak : Exp :=
  .act 430 (.scope (.seq (.alt (.lit ['\'', '\'', '\'']) (.alt (.lit ['*', '*', '*']) (.alt (.lit ['*', ' ',
    '*', ' ', '*']) (.alt (.lit ['-', '-', '-']) (.alt (.lit ['-', ' ', '-', ' ', '-']) (.alt (.lit ['_',
    '_', '_']) (.lit ['_', ' ', '_', ' ', '_']))))))) (.seq (.star (.rule R.Space)) (.seq (.rule R.EOL) (.rule
    R.EOL)))))

/-- parser.peg:2707 `UserMacroBlock` -/
def gUserMacroBlock : Exp :=
  .act 432 (.scope (.seq (.rule R.UserMacroName) (.seq (.pred 431) (.seq (.lit [':', ':']) (.seq (.rule R.UserMacroValue)
    (.seq (.rule R.InlineAttributes) (.rule R.EOL)))))))

/-- parser.peg:2719 `InlineUserMacro` -/
def gInlineUserMacro : Exp :=
  .act 434 (.scope (.seq (.rule R.UserMacroName) (.seq (.pred 433) (.seq (.lit [':']) (.seq (.rule R.UserMacroValue)
    (.rule R.InlineAttributes))))))

/-- parser.peg:2731 `UserMacroName` -/
def gUserMacroName : Exp :=
  .act 435 (.plus (.cls ⟨false, ['_', '-'], [], true, true⟩))

/-- parser.peg:2735 `UserMacroValue` -/
def gUserMacroValue : Exp :=
  .act 436 (.star (.cls ⟨true, [':', '[', ' ', '\r', '\n'], [], false, false⟩))

/-- parser.peg:2742 `Alphanum` -/
def gAlphanum : Exp :=
  .cls ⟨false, [], [], true, true⟩

/-- parser.peg:2744 `Parenthesis` -/
def gParenthesis : Exp :=
  .alt (.lit ['(']) (.alt (.lit [')']) (.alt (.lit ['[']) (.alt (.lit [']']) (.alt (.lit ['{']) (.lit ['}'])))))

/-- parser.peg:2746 `Alphanums` -/
def gAlphanums : Exp :=
  .act 437 (.plus (.cls ⟨false, [], [], true, true⟩))

/-- parser.peg:2750 `InlineText` -/
def gInlineText : Exp :=
  .act 440 (.scope (.seq (.act 438 (.plus (.cls ⟨false, [], [], true, true⟩))) (.seq (.notP (.scope (.seq
    (.lit [':']) (.pred 439)))) (.notP (.scope (.seq (.lit ['@']) (.cls ⟨false, [], [], true, true⟩)))))))

/-- parser.peg:2768 `Punctuation` -/
def gPunctuation : Exp :=
  .act 443 (.alt (.cls ⟨false, ['.', ',', ';', '?', ')', '!', '/', ':', '"', '\'', '@', '=', '-'], [], false,
    false⟩) (.alt (.alt (.scope (.seq (.pred 441) (.lit ['[']))) (.lit [']'])) (.alt (.scope (.seq (.pred
    442) (.alt (.lit ['*']) (.alt (.lit ['_']) (.alt (.lit ['`']) (.lit ['#'])))))) (.scope (.seq (.lit ['('])
    (.notP (.lit ['('])))))))

/-- parser.peg:2791 `AnyChar` -/
def gAnyChar : Exp :=
  .act 444 (.cls ⟨true, ['\r', '\n'], [], false, false⟩)

/-- parser.peg:2798 `AnyChars` -/
def gAnyChars : Exp :=
  .act 445 (.star (.cls ⟨true, ['\r', '\n'], [], false, false⟩))

/-- parser.peg:2802 `ManyChars` -/
def gManyChars : Exp :=
  .act 446 (.plus (.cls ⟨true, ['\r', '\n'], [], false, false⟩))

/-- parser.peg:2806 `FileLocation` -/
def gFileLocation : Exp :=
  .act 447 (.rule R.Filename)

/-- parser.peg:2810 `Location` -/
def gLocation : Exp :=
  .act 448 (.scope (.seq (.opt (.rule R.Scheme)) (.rule R.Filename)))

/-- parser.peg:2814 `LocationWithScheme` -/
def gLocationWithScheme : Exp :=
  .act 449 (.scope (.seq (.notP (.lit ['['])) (.seq (.rule R.Scheme) (.rule R.Filename))))

/-- parser.peg:2818 `Scheme` -/
def gScheme : Exp :=
  .act 450 (.alt (.lit ['h', 't', 't', 'p', ':', '/', '/']) (.alt (.lit ['h', 't', 't', 'p', 's', ':', '/',
    '/']) (.alt (.lit ['f', 't', 'p', ':', '/', '/']) (.alt (.lit ['i', 'r', 'c', ':', '/', '/']) (.lit ['m',
    'a', 'i', 'l', 't', 'o', ':'])))))

/-- parser.peg:2822 `Filename` -/
def gFilename : Exp :=
  .act 453 (.plus (.alt (.act 451 (.scope (.seq (.notP (.lit ['['])) (.plus (.cls ⟨true, ['\r', '\n', '[',
    ']', '\ufffd', '{', ',', ';', '?', '!', '.', '<', '>', ' '], [], false, false⟩))))) (.alt (.scope (.seq
    (.cls ⟨false, [',', ';', '?', '!', '.'], [], false, false⟩) (.andP (.scope (.seq (.notP (.rule R.Space))
    (.notP (.rule R.EOF))))))) (.alt (.rule R.AttributeReference) (.alt (.rule R.ElementPlaceHolder) (.act
    452 (.lit ['{'])))))))

/-- parser.peg:2837 `Id` -/
def gId : Exp :=
  .act 454 (.plus (.cls ⟨true, ['[', ']', '<', '>', ','], [], false, false⟩))

/-- parser.peg:2841 `Number` -/
def gNumber : Exp :=
  .alt (.rule R.Float) (.rule R.Integer)

/-- parser.peg:2844 `Integer` -/
def gInteger : Exp :=
  .act 455 (.scope (.seq (.opt (.lit ['-'])) (.plus (.cls ⟨false, [], [('0', '9')], false, false⟩))))

/-- parser.peg:2848 `Float` -/
def gFloat : Exp :=
  .act 456 (.scope (.seq (.opt (.lit ['-'])) (.seq (.plus (.cls ⟨false, [], [('0', '9')], false, false⟩))
    (.seq (.lit ['.']) (.plus (.cls ⟨false, [], [('0', '9')], false, false⟩))))))

/-- parser.peg:2852 `Space` -/
def gSpace : Exp :=
  .act 457 (.cls ⟨false, ['\t', ' '], [], false, false⟩)

/-- parser.peg:2856 `Spaces` -/
def gSpaces : Exp :=
  .act 458 (.plus (.cls ⟨false, ['\t', ' '], [], false, false⟩))

/-- parser.peg:2861 `Newline` -/
def gNewline : Exp :=
  .act 459 (.alt (.lit ['\n']) (.alt (.lit ['\r', '\n']) (.lit ['\r'])))

/-- parser.peg:2865 `SingleNewline` -/
def gSingleNewline : Exp :=
  .act 460 (.scope (.seq (.rule R.Newline) (.notP (.rule R.Newline))))

/-- parser.peg:2869 `NotEOF` -/
def gNotEOF : Exp :=
  .andP .any

/-- parser.peg:2871 `EOF` -/
def gEOF : Exp :=
  .notP .any

/-- parser.peg:2874 `EOL` -/
def gEOL : Exp :=
  .alt (.rule R.Newline) (.rule R.EOF)

/-- All the rules, in the order of the file (parser.peg). -/
def rules : List Exp := [
  gDocumentRawLine, gRawSection, gConditionalInclusion, gIfdef,
  gIfndef, gConditionalInclusionAttribute, gIfeval, gIfevalExpressionMember,
  gIfevalExpressionOperand, gIfevalExpressionValue, gEndIf, gConditionalVariableName,
  gFileInclusion, gFileIncludeAttributes, gLineRanges, gMultipleLineRanges,
  gMultilineRange, gSinglelineRange, gTagRanges, gMultipleTagRanges,
  gTagRange, gTagWildcard, gIncludedFileLine, gIncludedFileStartTag,
  gIncludedFileEndTag, gDocumentFragment, gRawLine, gDelimitedBlockElements,
  gFrontMatterFragmentElement, gAttributeDeclaration, gAttributeName, gAttributeDeclarationValue,
  gAttributeDeclarationValueElements, gAttributeDeclarationValueElement, gAttributeReset, gBlockAttributes,
  gInlineAttributes, gLegacyElementID, gShortHandTitle, gLongHandAttributes,
  gFirstPositionalAttributes, gShortHandIDAttribute, gShortHandAttribute, gShortHandDotRoleAttribute,
  gShortHandOptionAttribute, gShortHandAttributeValue, gPositionalAttribute, gNamedAttribute,
  gNamedAttributeKey, gAttributeValue, gSingleQuotedAttributeValue, gSingleQuotedAttributeValueContent,
  gDoubleQuotedAttributeValue, gDoubleQuotedAttributeValueContent, gUnquotedAttributeValue, gAttributeReference,
  gAttributeReferenceValue, gCounterReference, gCounterSubstitution1, gCounterSubstitution2,
  gCounterStart, gBlankLine, gCrossReference, gInternalCrossReference,
  gExternalCrossReference, gCrossReferenceLabel, gDelimitedBlock, gBlockDelimiter,
  gCommentBlockDelimiter, gExampleBlockDelimiter, gFencedBlockDelimiter, gMarkdownCodeDelimiter,
  gLanguage, gListingBlockDelimiter, gOpenBlockDelimiter, gLiteralBlockDelimiter,
  gPassthroughBlockDelimiter, gQuoteBlockDelimiter, gSidebarBlockDelimiter, gDelimitedBlockRawLine,
  gCommentBlock, gCommentBlockStartDelimiter, gCommentBlockEndDelimiter, gCommentBlockContent,
  gExampleBlock, gExampleBlockStartDelimiter, gExampleBlockEndDelimiter, gExampleBlockContent,
  gFencedBlock, gFencedBlockStartDelimiter, gFencedBlockEndDelimiter, gFencedBlockContent,
  gListingBlock, gListingBlockStartDelimiter, gListingBlockEndDelimiter, gListingBlockContent,
  gLiteralBlock, gLiteralBlockStartDelimiter, gLiteralBlockEndDelimiter, gLiteralBlockContent,
  gMarkdownCodeBlock, gMarkdownCodeBlockStartDelimiter, gMarkdownCodeBlockEndDelimiter, gMarkdownCodeBlockContent,
  gMarkdownQuoteBlock, gMarkdownQuoteRawLine, gMarkdownQuoteAttribution, gOpenBlock,
  gOpenBlockStartDelimiter, gOpenBlockEndDelimiter, gOpenBlockContent, gPassthroughBlock,
  gPassthroughBlockStartDelimiter, gPassthroughBlockEndDelimiter, gPassthroughBlockContent, gQuoteBlock,
  gQuoteBlockStartDelimiter, gQuoteBlockEndDelimiter, gQuoteBlockContent, gSidebarBlock,
  gSidebarBlockStartDelimiter, gSidebarBlockEndDelimiter, gSidebarBlockContent, gDocumentHeader,
  gDocumentTitle, gDocumentAuthorsAndRevision, gDocumentAuthors, gDocumentAuthor,
  gDocumentAuthorFullName, gDocumentAuthorEmail, gDocumentRevision, gDocumentRevisionNumber,
  gDocumentRevisionDate, gDocumentRevisionRemark, gElementPlaceHolderDelimiter, gElementPlaceHolder,
  gLineBreak, gFrontMatter, gYamlFrontMatter, gYamlFrontMatterDelimiter,
  gYamlFrontMatterContent, gFrontMatterFragment, gFrontMatterDelimiter, gFrontMatterLine,
  gInlineAnchor, gInlineButton, gInlineMenu, gIndexTerm,
  gIndexTermContent, gConcealedIndexTerm, gConcealedIndexTermContent, gImageBlock,
  gInlineImage, gInlineIcon, gInlineFootnote, gFootnoteRef,
  gFootnoteElements, gFootnoteElement, gSinglePlusPassthroughPrefix, gSinglePlusPassthrough,
  gSinglePlusPassthroughContent, gTriplePlusPassthroughPrefix, gTriplePlusPassthrough, gTriplePlusPassthroughContent,
  gPassthroughMacro, gPassthroughMacroCharacter, gLink, gBareURL,
  gRelativeLink, gExternalLink, gEmailAddress, gEmailAddressLocal,
  gEmailAddressDomain, gListElements, gListElement, gExtraListElements,
  gExtraListElement, gListElementParagraphLine, gListElementContent, gListContinuation,
  gListContinuationMarker, gListContinuationElement, gListContinuationParagraph, gOrderedListElement,
  gOrderedListElementPrefix, gUnorderedListElement, gUnorderedListElementPrefix, gUnorderedListElementCheckStyle,
  gLabeledListElement, gLabeledListElementTerm, gLabeledListElementSeparator, gLabeledListElementDescription,
  gCallout, gCalloutListElement, gCalloutListElementPrefix, gParagraphStyle,
  gShortcutParagraph, gParagraph, gParagraphRawLine, gQuotedText,
  gEscapedQuotedText, gUnescapedQuotedText, gSingleQuotedTextMarker, gDoubleQuotedTextPrefix,
  gSingleQuotedText, gDoubleQuotedText, gSubscriptOrSuperscriptPrefix, gOneOrMoreBackslashes,
  gTwoOrMoreBackslashes, gQuotedTextElement, gBoldTextDelimiter, gDoubleQuoteBoldTextStartDelimiter,
  gDoubleQuoteBoldTextEndDelimiter, gDoubleQuoteBoldText, gDoubleQuoteBoldTextElements, gDoubleQuoteBoldTextElement,
  gSingleQuoteBoldTextStartDelimiter, gSingleQuoteBoldTextEndDelimiter, gSingleQuoteBoldText, gSingleQuoteBoldTextElements,
  gSingleQuoteBoldTextElement, gEscapedBoldText, gItalicTextDelimiter, gDoubleQuoteItalicTextStartDelimiter,
  gDoubleQuoteItalicTextEndDelimiter, gDoubleQuoteItalicText, gDoubleQuoteItalicTextElements, gDoubleQuoteItalicTextElement,
  gSingleQuoteItalicTextStartDelimiter, gSingleQuoteItalicTextEndDelimiter, gSingleQuoteItalicText, gSingleQuoteItalicTextElements,
  gSingleQuoteItalicTextElement, gEscapedItalicText, gMonospaceTextDelimiter, gDoubleQuoteMonospaceTextStartDelimiter,
  gDoubleQuoteMonospaceTextEndDelimiter, gDoubleQuoteMonospaceText, gDoubleQuoteMonospaceTextElements, gDoubleQuoteMonospaceTextElement,
  gSingleQuoteMonospaceTextStartDelimiter, gSingleQuoteMonospaceTextEndDelimiter, gSingleQuoteMonospaceText, gSingleQuoteMonospaceTextElements,
  gSingleQuoteMonospaceTextElement, gEscapedMonospaceText, gMarkedTextDelimiter, gDoubleQuoteMarkedTextStartDelimiter,
  gDoubleQuoteMarkedTextEndDelimiter, gDoubleQuoteMarkedText, gDoubleQuoteMarkedTextElements, gDoubleQuoteMarkedTextElement,
  gSingleQuoteMarkedTextStartDelimiter, gSingleQuoteMarkedTextEndDelimiter, gSingleQuoteMarkedText, gSingleQuoteMarkedTextElements,
  gSingleQuoteMarkedTextElement, gEscapedMarkedText, gSubscriptText, gSubscriptTextDelimiter,
  gSubscriptTextElement, gNonSubscriptText, gEscapedSubscriptText, gSuperscriptText,
  gSuperscriptTextDelimiter, gSuperscriptTextElement, gNonSuperscriptText, gEscapedSuperscriptText,
  gSection, gSectionTitle, gSectionTitleElement, gSectionTitleLegacyID,
  gNormalGroup, gAttributeStructuredValue, gAttributeStructuredValueElement, gInlineMacro,
  gInlinePassthrough, gQuote, gReplacement, gSpecialCharacter,
  gSinglelineComment, gSinglelineCommentDelimiter, gSinglelineCommentContent, gTypographicQuote,
  gSymbol, gQuotationMark, gCopyright, gTrademark,
  gRegistered, gEllipsis, gMdash, gSingleRightArrow,
  gSingleLeftArrow, gDoubleRightArrow, gDoubleLeftArrow, gTable,
  gTableDelimiter, gTableStartDelimiter, gTableEndDelimiter, gTableLine,
  gInlineTableCells, gInlineTableCell, gInlineTableCellContent, gMultilineTableCells,
  gMultilineTableCell, gMultilineTableCellContent, gTableCellFormat, gTableColumnsAttribute,
  gColumn, gThematicBreak, gUserMacroBlock, gInlineUserMacro,
  gUserMacroName, gUserMacroValue, gAlphanum, gParenthesis,
  gAlphanums, gInlineText, gPunctuation, gAnyChar,
  gAnyChars, gManyChars, gFileLocation, gLocation,
  gLocationWithScheme, gScheme, gFilename, gId,
  gNumber, gInteger, gFloat, gSpace,
  gSpaces, gNewline, gSingleNewline, gNotEOF,
  gEOF, gEOL]

/-- The grammar (parser.peg). -/
def grammar (i : Nat) : Exp := rules.getD i .eps

end Grammar
end Verif
