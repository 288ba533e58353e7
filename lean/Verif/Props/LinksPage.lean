import Verif.Props.Links
import Verif.Props.Rendering
/-! C78: links with the templates of html5 and xhtml5. -/
namespace Verif.C78
open Rend (AV El Attrs Lib M)
open Links

theorem templates_both : (C51.lib Html.html).tmpl.link = Tmpl.Html5.linkTmpl ∧ (C51.lib Html.xhtml).tmpl.link = Tmpl.Html5.linkTmpl ∧
    (C51.lib Html.html).tmpl.externalCrossReference = Tmpl.Html5.externalCrossReferenceTmpl ∧ (C51.lib Html.xhtml).tmpl.externalCrossReference = Tmpl.Html5.externalCrossReferenceTmpl :=
  ⟨rfl, rfl, rfl, rfl⟩

/-! ### Samples -/

/-- `https://a.org/?b&c="d"[*Text*,role=r,window=_blank]` -/
def sampleLink : Link :=
  ⟨"https://".toList, "a.org/?b&c=\"d\"".toList, 1,
    [("text", .els [.quoted .bold [] [.str "Text".toList]]), ("roles", .roles [.str "r".toList, .str "s".toList]), ("window", .str "_blank".toList)],
    .marked [.quoted .bold [] [.str "Text".toList]] "<strong>Text</strong>".toList⟩

/-- `https://a.org[role=r]` -/
def sampleBare : Link := ⟨"https://".toList, "a.org".toList, 2, [("roles", .roles [.str "r".toList])], .bare⟩

theorem sample_stated : Stated sampleLink ["r".toList, "s".toList] ∧ Stated sampleBare ["r".toList] := by
  refine ⟨⟨rfl, .inr rfl, by decide +kernel, fun h => absurd h (by decide +kernel), fun k hk v hv => ?_⟩, ⟨rfl, .inr rfl, by decide +kernel, fun h => absurd h (by decide +kernel), fun k hk v hv => ?_⟩⟩
  · simp only [List.mem_cons, List.not_mem_nil, or_false] at hk
    rcases hk with rfl | rfl
    · exact nomatch hv
    · exact ⟨_, (Option.some.inj hv).symm⟩
  · simp only [List.mem_cons, List.not_mem_nil, or_false] at hk
    rcases hk with rfl | rfl
    · exact nomatch hv
    · exact nomatch hv

theorem sample_shown (c : Rend.Ctx) (ha : c.attrs = []) (hp : c.prefixes = []) :
    Rend.renderElement (C51.lib Html.html) 4 sampleLink.element c =
      .ok ("<a href=\"https://a.org/?b&amp;c=&#34;d&#34;\" class=\"r s\" target=\"_blank\" rel=\"noopener\"><strong>Text</strong></a>".toList, c) ∧
    Rend.renderElement (C51.lib Html.html) 4 sampleBare.element c = .ok ("<a href=\"https://a.org\" class=\"bare r\">https://a.org</a>".toList, c) := by
  cases c
  subst ha
  subst hp
  constructor
  · refine (link_to_page templates_both.1 sample_stated.1 (n := 3) rfl ?_).trans (congrArg (fun t => Except.ok (t, _)) (by decide +kernel))
    change @Eq _ _ _
    kernel_rfl
  · exact (link_to_page templates_both.1 sample_stated.2 (n := 3) rfl trivial).trans (congrArg (fun t => Except.ok (t, _)) (by decide +kernel))

theorem sample_other (c : Rend.Ctx) (hp : c.prefixes = []) :
    Rend.renderElement (C51.lib Html.html) 4 (.extXref (some (.loc 1 [] (.str "dir.d/other.adoc".toList))) []) c =
      .ok ("<a href=\"dir.d/other.html\">dir.d/other.html</a>".toList, c) := by
  refine (other_document templates_both.2.2.1 (base := "dir.d/other".toList) (ext := "adoc".toList) (by decide +kernel) (n := 3) (by rw [hp]; rfl) (.inr ⟨rfl, rfl⟩)).trans
    (congrArg (fun t => Except.ok (t, _)) (by decide +kernel))

theorem sample_here (c : Rend.Ctx) (hp : c.prefixes = []) :
    Rend.renderElement (C51.lib Html.html) 4 (.extXref (some (.loc 1 [] (.str "dir.d/other".toList))) []) c =
      .ok ("<a href=\"#dir.d/other\">[dir.d/other]</a>".toList, c) := by
  refine (this_document templates_both.2.2.1 (dir := "dir.d/".toList) (name := "other".toList) (.inr (by decide +kernel)) (by decide +kernel) (n := 3) (by rw [hp]; rfl) (.inr ⟨rfl, rfl⟩)).trans
    (congrArg (fun t => Except.ok (t, _)) (by decide +kernel))

/-! ### Findings -/

/-- `xref:other.adoc#part[]`: the part is lost. -/
theorem finding_part (c : Rend.Ctx) (hp : c.prefixes = []) :
    Rend.renderElement (C51.lib Html.html) 4 (.extXref (some (.loc 1 [] (.str "other.adoc#part".toList))) []) c = .ok ("<a href=\"other.html\">other.html</a>".toList, c) := by
  refine (other_document templates_both.2.2.1 (base := "other".toList) (ext := "adoc#part".toList) (by decide +kernel) (n := 3) (by rw [hp]; rfl) (.inr ⟨rfl, rfl⟩)).trans
    (congrArg (fun t => Except.ok (t, _)) (by decide +kernel))

/-- The address of another document is not escaped: a quotation mark ends the attribute. -/
theorem finding_quote (c : Rend.Ctx) (hp : c.prefixes = []) :
    Rend.renderElement (C51.lib Html.html) 4 (.extXref (some (.loc 1 [] (.str "a\"b.adoc".toList))) [("xrefLabel", .str "B".toList)]) c =
      .ok ("<a href=\"a\"b.html\">B</a>".toList, c) := by
  refine (other_document templates_both.2.2.1 (base := "a\"b".toList) (ext := "adoc".toList) (by decide +kernel) (n := 3) (by rw [hp]; rfl) (.inl rfl)).trans
    (congrArg (fun t => Except.ok (t, _)) (by decide +kernel))

/-- The window is not escaped: it may hold other attributes. -/
theorem finding_window :
    Rend.renderElement (C51.lib Html.html) 4 (.link (some (.loc 1 [] (.str "a".toList))) [("text", .str "A".toList), ("window", .str "w\" onclick=\"f()".toList)])
      ⟨[], false, 0, [], [], false, [], []⟩ = .ok ("<a href=\"a\" target=\"w\" onclick=\"f()\">A</a>".toList, ⟨[], false, 0, [], [], false, [], []⟩) := by
  kernel_rfl

/-- The classes of the address of a mail begin with a space, if it has roles. -/
theorem finding_mail :
    Rend.renderElement (C51.lib Html.html) 4 (.link (some (.loc 1 "mailto:".toList (.str "a@b.c".toList))) [("roles", .roles [.str "r".toList])])
      ⟨[], false, 0, [], [], false, [], []⟩ = .ok ("<a href=\"mailto:a@b.c\" class=\" r\">a@b.c</a>".toList, ⟨[], false, 0, [], [], false, [], []⟩) := by
  kernel_rfl

/-- An empty text leaves nothing to click on. -/
theorem finding_empty :
    Rend.renderElement (C51.lib Html.html) 4 (.link (some (.loc 1 [] (.str "a".toList))) [("text", .str [])])
      ⟨[], false, 0, [], [], false, [], []⟩ = .ok ("<a href=\"a\"></a>".toList, ⟨[], false, 0, [], [], false, [], []⟩) := by
  kernel_rfl

end Verif.C78
