import Verif.Props.Woven
import Verif.Props.Listed
import Verif.Props.OutlineSample
import Verif.Props.InlineSample

/-!
# C69 — The hypotheses can be met
-/
namespace Verif
namespace C69
open Sectioned
open Rend hiding Item bind_ok

/-- Texts without markup are also read by the parser for texts with markup. -/
theorem world_grammatical : C59.Grammatical C65.world := by
  intro c t _ _
  refine ⟨Option Char, C65.sem c.subs, C65.acts, none, ?_, C65.acts_obey, ?_, C58.sem_classes c.subs, ?_⟩
  · intro id hid s st t h
    have h0 : Actions.guards.lookup id = none ∧ id ∉ [313, 324, 335, 346, 314, 325, 336, 347, 398, 387, 400, 316, 327, 338, 349, 442] := by
      simp only [List.mem_cons, List.not_mem_nil, or_false] at hid
      rcases hid with rfl | rfl | rfl | rfl <;> exact ⟨rfl, by decide⟩
    rw [C65.sem_other h0.2, h0.1] at h
    exact of_decide_eq_true h
  · intro g hg s st t
    have h0 : ∀ g ∈ Actions.guards, Actions.guards.lookup g.1 = some g.2 ∧ g.1 ∉ [313, 324, 335, 346, 314, 325, 336, 347, 398, 387, 400, 316, 327, 338, 349, 442] := by decide
    rw [C65.sem_other (h0 g hg).2, (h0 g hg).1]
  · intro n s' es u h
    have hx : ∃ es, ∃ n s' u, Peg.runV Grammar.grammar (C65.sem c.subs) C65.acts n (.rule Grammar.R.NormalGroup) t none t = some (.ok s' [.slice es] u) :=
      ⟨es, n, s', u, h⟩
    refine (dif_pos hx).trans ?_
    obtain ⟨n2, s2, u2, h2⟩ := hx.choose_spec
    have := Peg.runV_one h h2
    injection this with _ h3 _
    injection h3 with h3 _
    injection h3 with h3
    rw [← h3]

/-- A paragraph with markup, a list in a section, a block in a section below it, and references. -/
def sample : List Item :=
  [.block (.para ⟨"It's *very _easy_*:".toList, []⟩ []),
   .block (.blank []),
   .heading ⟨1, " ".toList, "Setup".toList, []⟩,
   .list (.node (C64.entry [] "" (.stars 1) " " "Unpack & run" []) []) [.node (C64.entry [] "" (.stars 1) " " "Done" []) []],
   .block (.blank []),
   .heading ⟨2, " ".toList, "Setup".toList, []⟩,
   .block (.verb .listing ⟨4, [], []⟩ [⟨"a *b*".toList, []⟩]),
   .block (.para ⟨"H~2~O".toList, []⟩ []),
   .block (.blank []),
   .heading ⟨1, " ".toList, "First run".toList, []⟩,
   .block (.para ⟨"See <<_Setup_2>>, *<<First run>>*, <<_Setup,over there>> and <<none>>".toList, []⟩ [])]

def reading (t : Text) : List Inlined.Piece :=
  if t = "It's *very _easy_*:".toList then
    [.text "It".toList, .sign .apostrophe, .text "s ".toList, .marked .bold false [.text "very ".toList, .marked .italic false [.text "easy".toList]], .text ":".toList]
  else if t = "H~2~O".toList then [.text "H".toList, .script false "2".toList, .text "O".toList]
  else if t = "See <<_Setup_2>>, *<<First run>>*, <<_Setup,over there>> and <<none>>".toList then
    [.text "See ".toList, .ref "_Setup_2".toList none, .text ", ".toList, .marked .bold false [.ref "First run".toList none], .text ", ".toList,
     .ref "_Setup".toList (some "over there".toList), .text " and ".toList, .ref "none".toList none]
  else [.text t]

theorem sample_good : Good (C59.alnum C63.sem) sample := by
  refine ⟨C63.para_of (by decide +kernel) (by decide +kernel) (by decide +kernel), trivial, (fun _ h => nomatch h), trivial,
    C63.heading_of (by decide +kernel) (by decide +kernel), trivial, ⟨?_, ?_, ⟨_, _, _, rfl, rfl, trivial⟩⟩, ?_, (fun _ h => nomatch h), trivial,
    C63.heading_of (by decide +kernel) (by decide +kernel), trivial, ⟨by decide, ⟨(fun _ h => nomatch h), fun _ h => nomatch h⟩, (fun _ h => nomatch h), ?_⟩, trivial,
    C63.para_of (by decide +kernel) (by decide +kernel) (by decide +kernel), trivial, (fun _ h => nomatch h), trivial,
    C63.heading_of (by decide +kernel) (by decide +kernel), trivial, C63.para_of (by decide +kernel) (by decide +kernel) (by decide +kernel), trivial, trivial⟩
  · intro e he
    have he : e ∈ [_, _] := he
    simp only [List.mem_cons, List.not_mem_nil, or_false] at he
    rcases he with rfl | rfl
    · exact C64.entry_of (by decide +kernel) (by unfold Listed.Mark.Ok; decide) (fun _ h => nomatch h)
    · exact C64.entry_of (by decide +kernel) (by unfold Listed.Mark.Ok; decide) (fun _ h => nomatch h)
  · exact ⟨⟨rfl, fun h => absurd rfl h, trivial⟩, ⟨rfl, fun h => absurd rfl h, trivial⟩, trivial⟩
  · show ¬ _
    decide +kernel
  · intro l hl
    simp only [List.mem_cons, List.not_mem_nil, or_false] at hl
    obtain rfl := hl
    exact ⟨⟨by decide +kernel, (fun _ h => nomatch h), by decide +kernel⟩, C62.open_of (by decide +kernel)⟩

theorem sample_ready : ∀ x ∈ sample, Woven.Item.Ready Char.isAlpha Char.isDigit reading x := by
  intro x hx
  simp only [sample, List.mem_cons, List.not_mem_nil, or_false] at hx
  rcases hx with rfl | rfl | rfl | rfl | rfl | rfl | rfl | rfl | rfl | rfl | rfl
  · exact ⟨by decide +kernel, by decide +kernel, by decide +kernel⟩
  · trivial
  · trivial
  · intro e he
    have he : e ∈ [_, _] := he
    simp only [List.mem_cons, List.not_mem_nil, or_false] at he
    rcases he with rfl | rfl <;> (unfold PlainText.Plain; decide +kernel)
  · trivial
  · trivial
  · show Composed.Block.Plain _; unfold Composed.Block.Plain; decide +kernel
  · exact ⟨by decide +kernel, by decide +kernel, by decide +kernel⟩
  · trivial
  · trivial
  · exact ⟨by decide +kernel, by decide +kernel, by decide +kernel⟩

theorem sample_gapless : Outlined.Gapless (Outlined.levels 2 sample) := by
  rw [show Outlined.levels 2 sample = [1, 2, 1] by decide]
  exact ⟨by decide, by decide, by decide, trivial⟩

/-- What is shown, without the table of contents. -/
def sampleHtml : Text :=
  "<div class=\"paragraph\">\n<p>It&#8217;s <strong>very <em>easy</em></strong>:</p>\n</div>\n".toList ++
  "<div class=\"sect1\">\n<h2 id=\"_setup\">Setup</h2>\n<div class=\"sectionbody\">\n".toList ++
  "<div class=\"ulist\">\n<ul>\n<li>\n<p>Unpack &amp; run</p>\n</li>\n<li>\n<p>Done</p>\n</li>\n</ul>\n</div>\n".toList ++
  "<div class=\"sect2\">\n<h3 id=\"_setup_2\">Setup</h3>\n<div class=\"listingblock\">\n<div class=\"content\">\n<pre>a *b*</pre>\n</div>\n</div>\n".toList ++
  "<div class=\"paragraph\">\n<p>H<sub>2</sub>O</p>\n</div>\n</div>\n</div>\n</div>\n".toList ++
  "<div class=\"sect1\">\n<h2 id=\"_first_run\">First run</h2>\n<div class=\"sectionbody\">\n<div class=\"paragraph\">\n<p>See <a href=\"#_setup_2\">Setup</a>, ".toList ++
  "<strong><a href=\"#_first_run\">First run</a></strong>, <a href=\"#_setup\">over there</a> and <a href=\"#none\">[none]</a></p>\n</div>\n</div>\n</div>\n".toList

theorem sample_source : source sample = "It's *very _easy_*:\n\n== Setup\n* Unpack & run\n* Done\n\n=== Setup\n----\na *b*\n----\nH~2~O\n\n== First run\nSee <<_Setup_2>>, *<<First run>>*, <<_Setup,over there>> and <<none>>\n".toList := by decide +kernel

/-- From what is written to what is shown. -/
theorem sample_to_page (c : Walk.Ctx) (fmt : Val → Text) : Nonempty (Stages C50.rawEnv 0 (rootCtx [] []) C63.sem C62.acts 0 C62.reader C65.world c fmt ⟨[], []⟩ (C51.lib Html.html) C60.plainCfg
    "It's *very _easy_*:\n\n== Setup\n* Unpack & run\n* Done\n\n=== Setup\n----\na *b*\n----\nH~2~O\n\n== First run\nSee <<_Setup_2>>, *<<First run>>*, <<_Setup,over there>> and <<none>>\n".toList sampleHtml) := by
  have h := text_to_page C50.rawEnv_reads 0 (ctx := rootCtx [] []) rfl C63.sem_code C63.sem_place C63.sem_list C63.sem_lenCode C62.acts_obey (s := 0) rfl (D := C62.reader) C62.reader_reads
    world_grammatical C65.world_spoken c fmt (pa := ⟨[], []⟩) rfl rfl (L := C51.lib Html.html) (R := Html.html) rfl
    (C60.plainCfg_article _) rfl sample_good (C68.untouched (by decide +kernel)) sample_ready
  rw [sample_source, show Woven.page (C51.lib Html.html).lower (C59.alnum C63.sem) (getBoolD C60.plainCfg.attrs "unicode" true) reading sample = sampleHtml by decide +kernel] at h
  exact h

/-- The same with a table of contents. -/
theorem sample_outlined (c : Walk.Ctx) (fmt : Val → Text) : Nonempty (Stages C50.rawEnv 0 (rootCtx [] []) C63.sem C62.acts 0 C62.reader C65.world c fmt ⟨[], []⟩ (C51.lib Html.html) C68.tocCfg
    "It's *very _easy_*:\n\n== Setup\n* Unpack & run\n* Done\n\n=== Setup\n----\na *b*\n----\nH~2~O\n\n== First run\nSee <<_Setup_2>>, *<<First run>>*, <<_Setup,over there>> and <<none>>\n".toList
    ("<div id=\"toc\" class=\"toc\">\n<div id=\"toctitle\">Table of Contents</div>\n<ul class=\"sectlevel1\">\n".toList ++
     "<li><a href=\"#_setup\">Setup</a>\n<ul class=\"sectlevel2\">\n<li><a href=\"#_setup_2\">Setup</a></li>\n</ul>\n</li>\n<li><a href=\"#_first_run\">First run</a></li>\n</ul>\n</div>\n".toList ++ sampleHtml)) := by
  have h := outlined_to_page C50.rawEnv_reads 0 (ctx := rootCtx [] []) rfl C63.sem_code C63.sem_place C63.sem_list C63.sem_lenCode C62.acts_obey (s := 0) rfl (D := C62.reader) C62.reader_reads
    world_grammatical C65.world_spoken c fmt (pa := ⟨[], []⟩) rfl rfl (depth := 2) rfl (L := C51.lib Html.html) (R := Html.html) rfl
    (C68.tocCfg_article _) (.inl rfl) (.inl rfl) sample_good (C68.untouched (by decide +kernel)) sample_ready sample_gapless
  have e2 : Woven.outlinedPage (C51.lib Html.html).lower (C59.alnum C63.sem) (getBoolD C68.tocCfg.attrs "unicode" true) (C68.tocName C68.tocCfg.attrs) 2 reading sample =
    ("<div id=\"toc\" class=\"toc\">\n<div id=\"toctitle\">Table of Contents</div>\n<ul class=\"sectlevel1\">\n".toList ++
     "<li><a href=\"#_setup\">Setup</a>\n<ul class=\"sectlevel2\">\n<li><a href=\"#_setup_2\">Setup</a></li>\n</ul>\n</li>\n<li><a href=\"#_first_run\">First run</a></li>\n</ul>\n</div>\n".toList ++ sampleHtml) := by decide +kernel
  rw [sample_source, e2] at h
  exact h

end C69
end Verif
