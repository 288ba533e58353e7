import Verif.Props.WovenSample

/-!
# C70 — References to sections: findings
-/
namespace Verif
namespace C70
open Sectioned Peg Grammar
open C65 (latin acts)
open Rend hiding Item bind_ok

def lost : List Item :=
  [.block (.para ⟨"See <<_getting_started>>, <<_Getting_started>> and <<x,R&D>>".toList, []⟩ []),
   .block (.blank []),
   .heading ⟨1, " ".toList, "Getting started".toList, []⟩]

def reading (t : Text) : List Inlined.Piece :=
  if t = "See <<_getting_started>>, <<_Getting_started>> and <<x,R&D>>".toList then
    [.text "See ".toList, .ref "_getting_started".toList none, .text ", ".toList, .ref "_Getting_started".toList none, .text " and ".toList, .ref "x".toList (some "R&D".toList)]
  else [.text t]

theorem lost_good : Good (C59.alnum C63.sem) lost :=
  ⟨C63.para_of (by decide +kernel) (by decide +kernel) (by decide +kernel), trivial, (fun _ h => nomatch h), trivial,
    C63.heading_of (by decide +kernel) (by decide +kernel), trivial, trivial⟩

theorem lost_ready : ∀ x ∈ lost, Woven.Item.Ready Char.isAlpha Char.isDigit reading x := by
  intro x hx
  simp only [lost, List.mem_cons, List.not_mem_nil, or_false] at hx
  rcases hx with rfl | rfl | rfl
  · exact ⟨by decide +kernel, by decide +kernel, by decide +kernel⟩
  · trivial
  · trivial

/-- Finding: the identifiers of sections are shown in lower case, but recorded as they are made of the titles (templates of section titles and links; cross_reference.go:26): the identifier that is on the page
does not give the title, only the link works. And labels are not escaped (cross_reference.go:24-25, 55-61): `&` is shown as it is written. -/
theorem finding_lower_case (c : Walk.Ctx) (fmt : Val → Text) :
    Nonempty (C69.Stages C50.rawEnv 0 (rootCtx [] []) C63.sem C62.acts 0 C62.reader C65.world c fmt ⟨[], []⟩ (C51.lib Html.html) C60.plainCfg
    "See <<_getting_started>>, <<_Getting_started>> and <<x,R&D>>\n\n== Getting started\n".toList
    ("<div class=\"paragraph\">\n<p>See <a href=\"#_getting_started\">[_getting_started]</a>, <a href=\"#_getting_started\">Getting started</a> and <a href=\"#x\">R&D</a></p>\n</div>\n".toList ++
     "<div class=\"sect1\">\n<h2 id=\"_getting_started\">Getting started</h2>\n<div class=\"sectionbody\">\n</div>\n</div>\n".toList)) := by
  have h := C69.text_to_page C50.rawEnv_reads 0 (ctx := rootCtx [] []) rfl C63.sem_code C63.sem_place C63.sem_list C63.sem_lenCode C62.acts_obey (s := 0) rfl (D := C62.reader) C62.reader_reads
    C69.world_grammatical C65.world_spoken c fmt (pa := ⟨[], []⟩) rfl rfl (L := C51.lib Html.html) (R := Html.html) rfl
    (C60.plainCfg_article _) rfl lost_good (C68.untouched (by decide +kernel)) lost_ready
  have e1 : source lost = "See <<_getting_started>>, <<_Getting_started>> and <<x,R&D>>\n\n== Getting started\n".toList := by decide +kernel
  have e2 : Woven.page (C51.lib Html.html).lower (C59.alnum C63.sem) (getBoolD C60.plainCfg.attrs "unicode" true) reading lost =
    ("<div class=\"paragraph\">\n<p>See <a href=\"#_getting_started\">[_getting_started]</a>, <a href=\"#_getting_started\">Getting started</a> and <a href=\"#x\">R&D</a></p>\n</div>\n".toList ++
     "<div class=\"sect1\">\n<h2 id=\"_getting_started\">Getting started</h2>\n<div class=\"sectionbody\">\n</div>\n</div>\n".toList) := by decide +kernel
  rw [e1, e2] at h
  exact h

/-- Finding: after a comma and a space there is no label (parser.peg:696-704), and the whole is not a reference: it is shown as it is written. -/
theorem finding_space : runV grammar latin acts 100 (.rule R.NormalGroup) "<<x, here>>".toList none "<<x, here>>".toList =
    some (.ok (some '>') [.slice [.special "<".toList, .special "<".toList, .str "x, here".toList, .special ">".toList, .special ">".toList]] []) := by kernel_rfl

/-- Finding: a label of one character is none (parser.peg:697-700). -/
theorem finding_short : runV grammar latin acts 100 (.rule R.NormalGroup) "<<x,y>>".toList none "<<x,y>>".toList =
    some (.ok (some '>') [.slice [.special "<".toList, .special "<".toList, .str "x,y".toList, .special ">".toList, .special ">".toList]] []) := by kernel_rfl

end C70
end Verif
