import Verif.Props.Outlined
import Verif.Props.Listed

/-!
# C68 — The hypotheses can be met; sections whose titles differ only in their case
-/
namespace Verif
namespace C68
open Sectioned (Heading Item named free anchor Good lines source)
open Outlined
open Rend hiding Item bind_ok

/-- A table of contents is wanted. -/
def tocCfg : Config := ⟨[("toc", .str [])], false, [], []⟩

theorem tocCfg_article (R : Html.Rules) : C60.Article (C51.lib R) tocCfg :=
  ⟨by show "article".toList ≠ "manpage".toList; decide +kernel, rfl, rfl⟩

/-- Sections on three levels; the depth is two. -/
def sample : List Item :=
  [.block (.para ⟨"First".toList, []⟩ []),
   .block (.blank []),
   .heading ⟨1, " ".toList, "Setup".toList, []⟩,
   .heading ⟨2, " ".toList, "On Linux".toList, []⟩,
   .heading ⟨3, " ".toList, "By hand".toList, []⟩,
   .heading ⟨2, " ".toList, "Setup".toList, []⟩,
   .heading ⟨1, " ".toList, "Usage".toList, []⟩]

theorem sample_good : Good (C59.alnum C63.sem) sample :=
  ⟨C63.para_of (by decide +kernel) (by decide +kernel) (by decide +kernel), trivial, (fun _ h => nomatch h), trivial,
    C63.heading_of (by decide +kernel) (by decide +kernel), trivial, C63.heading_of (by decide +kernel) (by decide +kernel), trivial,
    C63.heading_of (by decide +kernel) (by decide +kernel), trivial, C63.heading_of (by decide +kernel) (by decide +kernel), trivial,
    C63.heading_of (by decide +kernel) (by decide +kernel), trivial, trivial⟩

theorem untouched {xs : List Item} (h : (lines xs).all (fun l => l.all (fun c => !Grammar.isEol c) && decide (utf8Len l ≤ 65535) &&
    ["include::", "ifdef::", "ifndef::", "ifeval::[", "endif::"].all (fun k => !k.toList.isPrefixOf l)) = true) : ∀ l ∈ lines xs, C50.Untouched l :=
  fun l hl => C50.untouched_of (List.all_eq_true.mp h l hl)

theorem sample_plain : ∀ x ∈ sample, x.Plain := by
  intro x hx
  simp only [sample, List.mem_cons, List.not_mem_nil, or_false] at hx
  rcases hx with rfl | rfl | rfl | rfl | rfl | rfl | rfl <;> first | trivial | (show Composed.Block.Plain _; unfold Composed.Block.Plain; decide +kernel)

theorem sample_gapless : Gapless (levels 2 sample) := by
  rw [show levels 2 sample = [1, 2, 2, 1] by decide]
  exact ⟨by decide, by decide, by decide, by decide, trivial⟩

/-- From what is written to what is shown. -/
theorem sample_to_page (c : Walk.Ctx) (fmt : Val → Text) : Nonempty (C63.Stages C50.rawEnv 0 (rootCtx [] []) C63.sem C62.acts 0 C62.reader C59.world c fmt ⟨[], []⟩ (C51.lib Html.html) tocCfg
    "First\n\n== Setup\n=== On Linux\n==== By hand\n=== Setup\n== Usage\n".toList
    ("<div id=\"toc\" class=\"toc\">\n<div id=\"toctitle\">Table of Contents</div>\n<ul class=\"sectlevel1\">\n".toList ++
     "<li><a href=\"#_setup\">Setup</a>\n<ul class=\"sectlevel2\">\n".toList ++
     "<li><a href=\"#_on_linux\">On Linux</a></li>\n<li><a href=\"#_setup_2\">Setup</a></li>\n</ul>\n</li>\n".toList ++
     "<li><a href=\"#_usage\">Usage</a></li>\n</ul>\n</div>\n".toList ++
     "<div class=\"paragraph\">\n<p>First</p>\n</div>\n".toList ++
     "<div class=\"sect1\">\n<h2 id=\"_setup\">Setup</h2>\n<div class=\"sectionbody\">\n".toList ++
     "<div class=\"sect2\">\n<h3 id=\"_on_linux\">On Linux</h3>\n<div class=\"sect3\">\n<h4 id=\"_by_hand\">By hand</h4>\n</div>\n</div>\n".toList ++
     "<div class=\"sect2\">\n<h3 id=\"_setup_2\">Setup</h3>\n</div>\n</div>\n</div>\n".toList ++
     "<div class=\"sect1\">\n<h2 id=\"_usage\">Usage</h2>\n<div class=\"sectionbody\">\n</div>\n</div>\n".toList)) := by
  have h := text_to_page C50.rawEnv_reads 0 (ctx := rootCtx [] []) rfl C63.sem_code C63.sem_place C63.sem_list C63.sem_lenCode C62.acts_obey (s := 0) rfl (D := C62.reader) C62.reader_reads
    C59.world_grammatical c fmt (pa := ⟨[], []⟩) rfl rfl (depth := 2) rfl (L := C51.lib Html.html) (R := Html.html) rfl
    (tocCfg_article _) (.inl rfl) (.inl rfl) sample_good (untouched (by decide +kernel)) sample_plain sample_gapless
  have e1 : source sample = "First\n\n== Setup\n=== On Linux\n==== By hand\n=== Setup\n== Usage\n".toList := by decide +kernel
  have e2 : page (C51.lib Html.html).lower (C59.alnum C63.sem) (getBoolD tocCfg.attrs "unicode" true) (tocName tocCfg.attrs) 2 sample =
    ("<div id=\"toc\" class=\"toc\">\n<div id=\"toctitle\">Table of Contents</div>\n<ul class=\"sectlevel1\">\n".toList ++
     "<li><a href=\"#_setup\">Setup</a>\n<ul class=\"sectlevel2\">\n".toList ++
     "<li><a href=\"#_on_linux\">On Linux</a></li>\n<li><a href=\"#_setup_2\">Setup</a></li>\n</ul>\n</li>\n".toList ++
     "<li><a href=\"#_usage\">Usage</a></li>\n</ul>\n</div>\n".toList ++
     "<div class=\"paragraph\">\n<p>First</p>\n</div>\n".toList ++
     "<div class=\"sect1\">\n<h2 id=\"_setup\">Setup</h2>\n<div class=\"sectionbody\">\n".toList ++
     "<div class=\"sect2\">\n<h3 id=\"_on_linux\">On Linux</h3>\n<div class=\"sect3\">\n<h4 id=\"_by_hand\">By hand</h4>\n</div>\n</div>\n".toList ++
     "<div class=\"sect2\">\n<h3 id=\"_setup_2\">Setup</h3>\n</div>\n</div>\n</div>\n".toList ++
     "<div class=\"sect1\">\n<h2 id=\"_usage\">Usage</h2>\n<div class=\"sectionbody\">\n</div>\n</div>\n".toList) := by decide +kernel
  rw [e1, e2] at h
  exact h

/-! ### A finding -/

/-- FINDING: identifiers are compared before they are put in lower case: two sections whose titles differ only in their case have the same identifier on the
page, and both entries of the table of contents link to it. -/
theorem finding_case (c : Walk.Ctx) (fmt : Val → Text) : Nonempty (C63.Stages C50.rawEnv 0 (rootCtx [] []) C63.sem C62.acts 0 C62.reader C59.world c fmt ⟨[], []⟩ (C51.lib Html.html) tocCfg
    "== Go\n== GO\n".toList
    ("<div id=\"toc\" class=\"toc\">\n<div id=\"toctitle\">Table of Contents</div>\n<ul class=\"sectlevel1\">\n".toList ++
     "<li><a href=\"#_go\">Go</a></li>\n<li><a href=\"#_go\">GO</a></li>\n</ul>\n</div>\n".toList ++
     "<div class=\"sect1\">\n<h2 id=\"_go\">Go</h2>\n<div class=\"sectionbody\">\n</div>\n</div>\n".toList ++
     "<div class=\"sect1\">\n<h2 id=\"_go\">GO</h2>\n<div class=\"sectionbody\">\n</div>\n</div>\n".toList)) := by
  have h := text_to_page C50.rawEnv_reads 0 (ctx := rootCtx [] []) rfl C63.sem_code C63.sem_place C63.sem_list C63.sem_lenCode C62.acts_obey (s := 0) rfl (D := C62.reader) C62.reader_reads
    C59.world_grammatical c fmt (pa := ⟨[], []⟩) rfl rfl (depth := 2) rfl (L := C51.lib Html.html) (R := Html.html) rfl
    (tocCfg_article _) (.inl rfl) (.inl rfl) (xs := [.heading ⟨1, " ".toList, "Go".toList, []⟩, .heading ⟨1, " ".toList, "GO".toList, []⟩])
    ⟨C63.heading_of (by decide +kernel) (by decide +kernel), trivial, C63.heading_of (by decide +kernel) (by decide +kernel), trivial, trivial⟩
    (untouched (by decide +kernel)) (fun x hx => by
      simp only [List.mem_cons, List.not_mem_nil, or_false] at hx
      rcases hx with rfl | rfl <;> trivial) ⟨by decide, by decide, trivial⟩
  have e1 : source [.heading ⟨1, " ".toList, "Go".toList, []⟩, .heading ⟨1, " ".toList, "GO".toList, []⟩] = "== Go\n== GO\n".toList := by decide +kernel
  have e2 : page (C51.lib Html.html).lower (C59.alnum C63.sem) (getBoolD tocCfg.attrs "unicode" true) (tocName tocCfg.attrs) 2
      [.heading ⟨1, " ".toList, "Go".toList, []⟩, .heading ⟨1, " ".toList, "GO".toList, []⟩] =
    ("<div id=\"toc\" class=\"toc\">\n<div id=\"toctitle\">Table of Contents</div>\n<ul class=\"sectlevel1\">\n".toList ++
     "<li><a href=\"#_go\">Go</a></li>\n<li><a href=\"#_go\">GO</a></li>\n</ul>\n</div>\n".toList ++
     "<div class=\"sect1\">\n<h2 id=\"_go\">Go</h2>\n<div class=\"sectionbody\">\n</div>\n</div>\n".toList ++
     "<div class=\"sect1\">\n<h2 id=\"_go\">GO</h2>\n<div class=\"sectionbody\">\n</div>\n</div>\n".toList) := by decide +kernel
  rw [e1, e2] at h
  exact h

end C68
end Verif
