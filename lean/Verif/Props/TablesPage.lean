import Verif.Props.Tables
import Verif.Props.Rendering
/-! C77: tables with the templates of html5 and xhtml5. -/
namespace Verif.C77
open Rend (AV El Attrs Lib M Col)
open Tables

theorem boxes_both : Boxes (C51.lib Html.html) ">" ∧ Boxes (C51.lib Html.xhtml) "/>" :=
  ⟨⟨rfl, rfl, rfl, rfl, rfl, rfl, rfl, rfl, rfl, .inl ⟨rfl, rfl⟩⟩, ⟨rfl, rfl, rfl, rfl, rfl, rfl, rfl, rfl, rfl, .inr ⟨rfl, rfl⟩⟩⟩

/-- As an element of a document. -/
theorem element_to_page {L : Lib} {close : String} (hL : Boxes L close) (n : Nat) {a : Attrs} {title : Option Text} {roles : List Text} {asked : List Col} (ha : Simple a title roles asked) {g : Grid} {c₀ c : Rend.Ctx} {cap : Text} (hcap : Rend.optCaption title.isSome .table a c₀ = .ok (cap, c))
    (hg : Fits (Tables.columns asked g) g)
    (hr : ∀ r ∈ g.rows, ∀ l ∈ r, ∀ p ∈ l, Renders (Rend.renderElement L n) c p)
    (hh : ∀ r, g.header = some r → ∀ p ∈ r, RendersHead (Rend.renderElement L n) c p)
    (hf : ∀ r, g.footer = some r → ∀ p ∈ r, RendersHead (Rend.renderElement L n) c p) :
    Rend.renderElement L (n + 1) (.table a (g.header.map (·.map headEls)) (g.rows.map (·.map cellEls)) (g.footer.map (·.map headEls))) c₀ =
      .ok (Tables.page close L.atoi L.widths a cap title roles asked g, c) :=
  table_to_page hL ha hcap hg hr hh hf

/-! ### Samples -/

def text (s : String) : Piece := ([.str s.toList], s.toList)

def words (s : String) : Item := .para [.str s.toList] s.toList

/-- A quote, as an element of a document and as HTML. -/
def quote : Item := .block (.block .quote [] [.paragraph [] [.str "Q".toList]]) "<div class=\"quoteblock\">\n<blockquote>\n<div class=\"paragraph\">\n<p>Q</p>\n</div>\n</blockquote>\n</div>\n".toList

def sampleGrid : Grid := ⟨some [text "Name", text "Text"], [[[words "a"], [words "First", words "Second"]], [[words "b"], [quote]], [[words "c"]]], some [text "End"]⟩

def sampleCols : List Col := [⟨1, ">".toList, "^".toList, 1, "h".toList, false⟩, ⟨1, "<".toList, "<".toList, 3, "a".toList, false⟩]

def sampleAttrs : Attrs := [("cols", .cols (sampleCols.map some)), ("width", .str "40%".toList), ("grid", .str "rows".toList), ("id", .str "t".toList), ("title", .str "The table".toList), ("roles", .roles [.str "r".toList, .str "s".toList])]

theorem sample_simple : Simple sampleAttrs (some "The table".toList) ["r".toList, "s".toList] sampleCols := by
  refine ⟨rfl, .inr rfl, fun k hk v hv => ?_, .inr rfl⟩
  simp only [List.mem_cons, List.not_mem_nil, or_false] at hk
  rcases hk with rfl | rfl | rfl | rfl | rfl
  · exact nomatch hv
  · exact ⟨_, (Option.some.inj hv).symm⟩
  · exact nomatch hv
  · exact nomatch hv
  · exact ⟨_, (Option.some.inj hv).symm⟩

theorem sample_fits : Fits (Tables.columns sampleCols sampleGrid) sampleGrid :=
  ⟨nofun, by decide +kernel, fun r h => by cases h; decide +kernel, fun r h => by cases h; decide +kernel⟩

/-- With the number that `sampleAttrs` has. -/
def sampleLib : Lib := { C51.lib Html.xhtml with atoi := fun _ => 40 }

theorem sample_to_page (c : Rend.Ctx) (hc : c.attrs = [("table-caption", .str "Table".toList)]) (hn : c.counters = [("tableCounter", 2)]) (hw : c.within = false) (hl : c.withinList = 0) :
    Rend.renderElement sampleLib 5
      (.table sampleAttrs (sampleGrid.header.map (·.map headEls)) (sampleGrid.rows.map (·.map cellEls)) (sampleGrid.footer.map (·.map headEls))) c =
    .ok ("<table id=\"t\" class=\"tableblock frame-all grid-rows r s\" style=\"width: 40%;\">\n<caption class=\"title\">Table 3. The table</caption>\n".toList ++ (
      "<colgroup>\n".toList ++ (
      "<col style=\"width: 50%;\"/>\n".toList ++ (
      "<col style=\"width: 50%;\"/>\n</colgroup>\n".toList ++ (
      "<thead>\n".toList ++ (
      "<tr>\n".toList ++ (
      "<th class=\"tableblock halign-right valign-middle\">Name</th>\n".toList ++ (
      "<th class=\"tableblock halign-left valign-top\">Text</th>\n</tr>\n</thead>\n<tbody>\n".toList ++ (
      "<tr>\n".toList ++ (
      "<th class=\"tableblock halign-right valign-middle\"><p class=\"tableblock\">a</p></th>\n".toList ++ (
      "<td class=\"tableblock halign-left valign-top\"><p class=\"tableblock\">First</p>".toList ++ (
      "<p class=\"tableblock\">Second</p></td>\n</tr>\n".toList ++ (
      "<tr>\n".toList ++ (
      "<th class=\"tableblock halign-right valign-middle\"><p class=\"tableblock\">b</p></th>\n".toList ++ (
      "<td class=\"tableblock halign-left valign-top\">".toList ++ (
      "<div class=\"content\">".toList ++ (
      "<div class=\"quoteblock\">\n<blockquote>\n".toList ++ (
      "<div class=\"paragraph\">\n<p>Q</p>\n".toList ++ (
      "</div>\n</blockquote>\n".toList ++ (
      "</div>".toList ++ (
      "</div></td>\n</tr>\n".toList ++ (
      "<tr>\n".toList ++ (
      "<th class=\"tableblock halign-right valign-middle\"><p class=\"tableblock\">c</p></th>\n</tr>\n</tbody>\n<tfoot>\n".toList ++ (
      "<tr>\n".toList ++ (
      "<td class=\"tableblock halign-right valign-middle\"><p class=\"tableblock\">End</p></td>\n</tr>\n</tfoot>\n</table>\n".toList)))))))))))))))))))))))), { c with counters := [("tableCounter", 3)] }) := by
  obtain ⟨at', w, wl, cn, rf, hh, nm, pf⟩ := c
  dsimp only at hc hn hw hl
  subst hc
  subst hn
  subst hw
  subst hl
  have hb : Boxes sampleLib "/>" := ⟨rfl, rfl, rfl, rfl, rfl, rfl, rfl, rfl, rfl, .inr ⟨rfl, rfl⟩⟩
  refine (element_to_page (cap := "Table 3. ".toList) (c := ⟨[("table-caption", .str "Table".toList)], false, 0, [("tableCounter", 3)], rf, hh, nm, pf⟩) hb 4 sample_simple
    (by change @Eq _ _ _; kernel_rfl) sample_fits ?_ ?_ ?_).trans ?_
  · intro r hr l hl p hp
    simp only [sampleGrid, List.mem_cons, List.not_mem_nil, or_false] at hr
    rcases hr with rfl | rfl | rfl <;> simp only [List.mem_cons, List.not_mem_nil, or_false] at hl
    · rcases hl with rfl | rfl <;> simp only [List.mem_cons, List.not_mem_nil, or_false] at hp
      · subst hp; (change @Eq _ _ _; kernel_rfl)
      · rcases hp with rfl | rfl <;> (change @Eq _ _ _; kernel_rfl)
    · rcases hl with rfl | rfl <;> simp only [List.mem_cons, List.not_mem_nil, or_false] at hp
      · subst hp; (change @Eq _ _ _; kernel_rfl)
      · subst hp; exact ⟨nofun, by change @Eq _ _ _; kernel_rfl⟩
    · subst hl; simp only [List.mem_cons, List.not_mem_nil, or_false] at hp
      subst hp; (change @Eq _ _ _; kernel_rfl)
  · intro r h p hp
    cases h
    simp only [List.mem_cons, List.not_mem_nil, or_false] at hp
    rcases hp with rfl | rfl <;> (change @Eq _ _ _; kernel_rfl)
  · intro r h p hp
    cases h
    simp only [List.mem_cons, List.not_mem_nil, or_false] at hp
    subst hp
    (change @Eq _ _ _; kernel_rfl)
  · exact congrArg (fun t => Except.ok (t, _)) (by decide +kernel)

/-- Finding: a negative width is written as it is. -/
theorem finding_negative : breadth (-5) = " style=\"width: -5%;\"".toList ∧ fitting false (-5) = "stretch".toList := by decide +kernel

end Verif.C77
