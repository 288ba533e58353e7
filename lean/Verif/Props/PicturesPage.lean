import Verif.Props.Pictures
import Verif.Props.Rendering
/-! C76: images with the templates of html5 and xhtml5. -/
namespace Verif.C76
open Rend (AV El Attrs Lib M)
open Pictures

theorem draws_both : Draws (C51.lib Html.html) ">" ∧ Draws (C51.lib Html.xhtml) "/>" := ⟨.html rfl rfl, .xhtml rfl rfl⟩

/-- The title of a section: `image:a.png[]`. -/
def titleEls : List El := [.inlineImage (.loc 0 [] (.str "a.png".toList)) []]

/-- Finding: with `imagesdir=img`, the image in the title of a section is taken from `img/img`, because titles of sections are first rendered for the table of contents (even if there is none, see C74). -/
theorem finding_section_title :
    Rend.render (C51.lib Html.html) 10 ⟨[.sect 1 [("id", .str "_a".toList)] titleEls []], [("_a".toList, .els titleEls)], [], some (some [.entry "_a".toList 1 [] [] []])⟩
      ⟨[("imagesdir", .str "img".toList)], false, [], []⟩ =
    .ok ("<div class=\"sect1\">\n<h2 id=\"_a\"><span class=\"image\"><img src=\"img/img/a.png\" alt=\"img/img/a\"></span></h2>\n<div class=\"sectionbody\">\n</div>\n</div>\n".toList) := by
  kernel_rfl

/-! ### Samples -/

def samplePictures : List Picture :=
  [⟨true, 1, [], "a.png".toList, [("alt", .str "A".toList), ("id", .str "first".toList), ("width", .str "10".toList), ("float", .str "left".toList), ("roles", .roles [.str "r".toList, .str "s".toList])]⟩,
   ⟨false, 2, "https://".toList, "b.org/b.png".toList, [("link", .str "c".toList), ("align", .str "center".toList), ("title", .str "T".toList)]⟩, ⟨false, 3, [], "/d.png".toList, []⟩]

theorem sample_bare : ∀ x ∈ samplePictures, Bare x.attrs := by
  intro x hx
  simp only [samplePictures, List.mem_cons, List.not_mem_nil, or_false] at hx
  rcases hx with rfl | rfl | rfl
  · refine ⟨fun v hv => (nomatch hv), fun v hv => ⟨["r".toList, "s".toList], (Option.some.inj hv).symm⟩, fun k hk v hv => ?_⟩
    simp only [List.mem_cons, List.not_mem_nil, or_false] at hk
    rcases hk with rfl | rfl | rfl
    · exact nomatch hv
    · exact ⟨_, (Option.some.inj hv).symm⟩
    · exact nomatch hv
  · refine ⟨fun v hv => ⟨_, (Option.some.inj hv).symm⟩, fun v hv => (nomatch hv), fun k hk v hv => ?_⟩
    simp only [List.mem_cons, List.not_mem_nil, or_false] at hk
    rcases hk with rfl | rfl | rfl
    · exact ⟨_, (Option.some.inj hv).symm⟩
    · exact nomatch hv
    · exact nomatch hv
  · exact ⟨fun v hv => (nomatch hv), fun v hv => (nomatch hv), fun k hk v hv => by simp only [List.mem_cons, List.not_mem_nil, or_false] at hk; rcases hk with rfl | rfl | rfl <;> exact (nomatch hv)⟩

/-- With `imagesdir=img`, in xhtml5. -/
theorem sample_shown (c : Rend.Ctx) (ha : c.attrs = [("imagesdir", .str "img".toList)]) (hp : c.prefixes = []) :
    ∃ c', Rend.renderAll (Rend.renderElement (C51.lib Html.xhtml) 1) (samplePictures.map (·.element)) c = .ok
      (("<div id=\"first\" class=\"imageblock left r s\">\n<div class=\"content\">\n<img src=\"img/a.png\" alt=\"A\" width=\"10\"/>\n</div>\n</div>\n".toList ++
        "<span class=\"image text-center\"><a class=\"image\" href=\"c\"><img src=\"https://b.org/b.png\" alt=\"https://b\" title=\"T\"/></a></span>".toList ++
        "<span class=\"image\"><img src=\"/d.png\" alt=\"/d\"/></span>".toList), c') := by
  obtain ⟨c', h⟩ := images draws_both.2 0 samplePictures c sample_bare (by decide +kernel) (by rw [ha]; rfl) (fun x _ => by rw [hp]; rfl) (by decide +kernel)
    (fun x _ => by
      unfold altText
      split
      · rfl
      · rfl)
  refine ⟨c', h.trans ?_⟩
  rw [show dirOf c = "img".toList by unfold dirOf; rw [ha]; rfl]
  kernel_rfl

end Verif.C76
