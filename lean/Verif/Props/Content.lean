import Verif.Proofs.ContentDoc
import Verif.Props.Wellformed
/-!
C52: no text is lost.

`pieces` (Spec/Content.lean) are the words and the symbols of an element, in order; `InOrder ps t` says that the text `t` contains
them, in order and without overlapping, where a character may be written as an entity (`shownAs`).  `render` (Model/Render.lean) is
`pkg/renderer/sgml`.  With `src = true` the content of the source blocks is counted too, if the highlighter keeps words together.
-/
namespace Verif
namespace C52
open Verif.Rend Verif.Html

/-- Every element says its text, whatever the context in which it is rendered, and whatever is around it. -/
theorem element_text {L : Lib} (hL : Standard L) {src : Bool} (hh : src = true → Highlights L) (n : Nat) (e : El) {c c' : Rend.Ctx} {t : Text}
    (h : renderElement L n e c = .ok (t, c')) : InOrder (pieces src (c.within || decide (0 < c.withinList)) e) t :=
  (element_says hL hh n c.within c.withinList e c t c' ⟨rfl, rfl⟩ h).1

/-- An element leaves the renderer in the state in which it was: within a block or not, within as many lists. -/
theorem element_context {L : Lib} (hL : Standard L) (n : Nat) (e : El) {c c' : Rend.Ctx} {t : Text}
    (h : renderElement L n e c = .ok (t, c')) : c'.within = c.within ∧ c'.withinList = c.withinList :=
  (element_says (src := false) hL (fun h => nomatch h) n c.within c.withinList e c t c' ⟨rfl, rfl⟩ h).2

/-- The context in which the body of the document is rendered: after the table of contents. -/
def BodyContext (L : Lib) (n : Nat) (d : Doc) (cfg : Config) (c1 : Rend.Ctx) : Prop :=
  ∃ c toc, newContext d cfg = .ok c ∧ prerenderToc (renderElement L n) d.toc (startContext d c) = .ok (toc, c1)

theorem start_flags {d : Doc} {cfg : Config} {c : Rend.Ctx} (h : newContext d cfg = .ok c) :
    (startContext d c).within = false ∧ (startContext d c).withinList = 0 := by
  unfold newContext at h
  split at h
  · cases h
  · cases h; exact ⟨rfl, rfl⟩

/-- The body of an article says the text of the elements of the document, in the order of the document, then that of the footnotes. -/
theorem article_text {L : Lib} (hL : Standard L) {src : Bool} (hh : src = true → Highlights L) (n : Nat) {d : Doc} {cfg : Config}
    (hm : ∀ c, BodyContext L n d cfg c → ¬ isManpage L c) (hw : cfg.wrap = false) {t : Text} (h : render L n d cfg = .ok t) :
    InOrder (piecesAll src false d.elements ++ notesPieces src false d.footnotes) t := by
  obtain ⟨c, title, toc, c1, hb, c2, roles, c3, hc, _, h1, h2, _, h4⟩ := render_steps h
  have hf := (prerenderToc_any (src := src) (element_says hL hh n) d.toc _ _ _ (start_flags hc) h1).2
  have := split_article (src := src) hL (element_says hL hh n) hf (hm c1 ⟨c, toc, hc, h1⟩) h2
  unfold renderPage at h4
  rw [hw] at h4
  cases h4
  exact this.2

/-- The page says the title of the document (as plain text), the text of the elements, then that of the footnotes; and the title also
before the text, unless the header is left out. -/
theorem article_page {L : Lib} (hL : Standard L) {src : Bool} (hh : src = true → Highlights L) (n : Nat) {d : Doc} {cfg : Config}
    (hm : ∀ c, BodyContext L n d cfg c → ¬ isManpage L c) (hw : cfg.wrap = true) {t : Text} (h : render L n d cfg = .ok t) :
    InOrder (plainPiecesAll (titleOf d.elements) ++ (piecesAll src false d.elements ++ notesPieces src false d.footnotes)) t := by
  obtain ⟨c, title, toc, c1, hb, c2, roles, c3, hc, ht, h1, h2, _, h4⟩ := render_steps h
  have hf := (prerenderToc_any (src := src) (element_says hL hh n) d.toc _ _ _ (start_flags hc) h1).2
  have hb := split_article (src := src) hL (element_says hL hh n) hf (hm c1 ⟨c, toc, hc, h1⟩) h2
  exact (page_says hL (documentTitle_says (fun e t => goodPlain n true e t) ht) hb.1 hb.2 hw h4).1

/-- If `noheader` is not set at the end, the title is also written in the header of the page. -/
theorem article_header {L : Lib} (hL : Standard L) {src : Bool} (hh : src = true → Highlights L) (n : Nat) {d : Doc} {cfg : Config}
    (hm : ∀ c, BodyContext L n d cfg c → ¬ isManpage L c) (hw : cfg.wrap = true) {t : Text} (h : render L n d cfg = .ok t)
    (hn : ∀ c parts c3, newContext d cfg = .ok c → renderParts L (renderElement L n)
      (fun esc => plain L (if esc then some Escape.escapeString else none) n) cfg.wrap d (startContext d c) = .ok (parts, c3) →
        has c3.attrs "noheader" = false) :
    InOrder (plainPiecesAll (titleOf d.elements) ++ piecesAll src false (titleOf d.elements) ++
      (piecesAll src false d.elements ++ notesPieces src false d.footnotes)) t := by
  obtain ⟨c, title, toc, c1, hb, c2, roles, c3, hc, ht, h1, h2, h3, h4⟩ := render_steps h
  have hf := (prerenderToc_any (src := src) (element_says hL hh n) d.toc _ _ _ (start_flags hc) h1).2
  have hs := split_article (src := src) hL (element_says hL hh n) hf (hm c1 ⟨c, toc, hc, h1⟩) h2
  refine (page_says hL (documentTitle_says (fun e t => goodPlain n true e t) ht) hs.1 hs.2 hw h4).2 (hn c (hb.1, hb.2, roles) c3 hc ?_)
  have e : ∀ {α β : Type} {m : M α} {f : α → M β} {c c1 : Rend.Ctx} {a : α}, m c = .ok (a, c1) → (m >>= f) c = f a c1 := by
    intro α β m f c c1 a h
    show M.bind m f c = f a c1
    unfold M.bind
    rw [h]
  unfold renderParts
  rw [e h1, e h2, e h3]
  rfl

/-- A manual page says the title and the first paragraph of its first section, the text of the other elements, and that of the
footnotes.  (On a whole page the former are in the header, which may be left out.) -/
theorem manpage_text {L : Lib} (hL : Standard L) {src : Bool} (hh : src = true → Highlights L) (n : Nat) {d : Doc} {cfg : Config}
    (hm : ∀ c, BodyContext L n d cfg c → isManpage L c) {t : Text} (h : render L n d cfg = .ok t) :
    ∃ name rest, bodyElements d.elements = name :: rest ∧
      (cfg.wrap = true → InOrder (plainPiecesAll (titleOf d.elements) ++ (piecesAll src false rest ++ notesPieces src false d.footnotes)) t) ∧
      (cfg.wrap = false → InOrder (namePieces src name ++ (piecesAll src false rest ++ notesPieces src false d.footnotes)) t) := by
  obtain ⟨c, title, toc, c1, hb, c2, roles, c3, hc, ht, h1, h2, _, h4⟩ := render_steps h
  have hf := (prerenderToc_any (src := src) (element_says hL hh n) d.toc _ _ _ (start_flags hc) h1).2
  obtain ⟨name, rest, he, hw1, hw0⟩ := split_manpage (src := src) hL (element_says hL hh n) (goodPlain n) hh hf (hm c1 ⟨c, toc, hc, h1⟩) h2
  refine ⟨name, rest, he, fun hw => ?_, fun hw => ?_⟩
  · have hs := hw1 hw
    exact (page_says hL (documentTitle_says (fun e t => goodPlain n true e t) ht) hs.1 hs.2 hw h4).1
  · have hs := hw0 hw
    unfold renderPage at h4
    rw [hw] at h4
    cases h4
    exact hs

/-- Without table of contents, the document is a manual page if the declarations at its beginning say so. -/
theorem body_context {L : Lib} {n : Nat} {d : Doc} {cfg : Config} (ht : d.toc = none) {c1 : Rend.Ctx} (h : BodyContext L n d cfg c1) :
    ∃ c, newContext d cfg = .ok c ∧ c1 = startContext d c := by
  obtain ⟨c, toc, hc, h⟩ := h
  rw [ht] at h
  cases h
  exact ⟨c, hc, rfl⟩

/-! ### What `InOrder` means -/

/-- Every word occurs. -/
theorem occurs {ps : List Piece} {t : Text} (h : InOrder ps t) : ∀ p ∈ ps, ∃ a v b, t = a ++ v ++ b ∧ Shows p v := by
  induction h with
  | nil => intro p hp; nomatch hp
  | @cons p ps a v b hs _ ih =>
    intro q hq
    rcases List.mem_cons.mp hq with rfl | hq
    · exact ⟨a, v, b, rfl, hs⟩
    · obtain ⟨a', v', b', e, hv⟩ := ih q hq
      exact ⟨a ++ v ++ a', v', b', by rw [e]; simp [List.append_assoc], hv⟩

/-- One word after the other: the output is divided, and each part says its words. -/
theorem ordered {ps qs : List Piece} {t : Text} (h : InOrder (ps ++ qs) t) : ∃ a b, t = a ++ b ∧ InOrder ps a ∧ InOrder qs b := by
  induction ps generalizing t with
  | nil => exact ⟨[], t, rfl, .nil, h⟩
  | cons p ps ih =>
    cases h with
    | @cons _ _ a v b hs h =>
      obtain ⟨x, y, e, hx, hy⟩ := ih h
      exact ⟨a ++ v ++ x, y, by rw [e]; simp [List.append_assoc], .cons hs hx, hy⟩

/-! ### A document -/

theorem lib_known (R : Rules) : Standard (C51.lib R) := by
  unfold Standard
  show templatesOf R = _ ∨ templatesOf R = _
  unfold templatesOf
  split
  · exact Or.inr rfl
  · exact Or.inl rfl

/-- The simple highlighter keeps words together. -/
theorem lib_highlights (R : Rules) : Highlights (C51.lib R) := by
  intro a b i t u h ps hp
  cases h
  exact hp.img (img_escape t)

/-- The document type, in the context of the body. -/
def bodyDoctype (wrap : Bool) : Option (Option AV) :=
  match newContext C51.sample (C51.sampleConfig wrap) with
  | .error _ => none
  | .ok c => match prerenderToc (renderElement (C51.lib html) 10) C51.sample.toc (startContext C51.sample c) with
    | .error _ => none
    | .ok r => some (AMap.get r.2.attrs "doctype")

/-- The theorems apply to the sample (Props/Wellformed.lean), which is not a manual page. -/
theorem sample_article (wrap : Bool) : ∀ c, BodyContext (C51.lib html) 10 C51.sample (C51.sampleConfig wrap) c → ¬ isManpage (C51.lib html) c := by
  rintro c1 ⟨c, toc, hc, hp⟩ hm
  have h : bodyDoctype wrap = some (AMap.get c1.attrs "doctype") := by
    unfold bodyDoctype
    rw [hc]
    dsimp only
    rw [hp]
  have hb : ((bodyDoctype wrap).getD none).isNone = true := by cases wrap <;> decide +kernel
  rw [h] at hb
  have this : AMap.get c1.attrs "doctype" = none := by simpa using hb
  unfold isManpage getStrD at hm
  rw [this] at hm
  exact absurd hm (by decide)

/-- What the sample says. -/
theorem sample_pieces : piecesAll true false C51.sample.elements ++ notesPieces true false C51.sample.footnotes =
    ["First", "part", "a", "<", "b", "one", "x", "y", "T", "note"].map (fun w => .word w.toList) := by decide +kernel

/-- The body of the sample says it. -/
example : ∃ t, render (C51.lib html) 10 C51.sample (C51.sampleConfig false) = .ok t ∧
    InOrder (["First", "part", "a", "<", "b", "one", "x", "y", "T", "note"].map (fun w => .word w.toList)) t := by
  cases h : render (C51.lib html) 10 C51.sample (C51.sampleConfig false) with
  | error e => have : (render (C51.lib html) 10 C51.sample (C51.sampleConfig false)).toOption.isSome = true := by decide +kernel
               rw [h] at this; cases this
  | ok t =>
    refine ⟨t, rfl, ?_⟩
    rw [← sample_pieces]
    exact article_text (lib_known _) (fun _ => lib_highlights _) 10 (sample_article false) rfl h

/-! ### What is lost

Each of the exceptions in `pieces` is there because the renderer loses the text. -/

/-- The header of a table without rows (without `cols`, the renderer panics: there is no column). -/
theorem finding_header_only :
    render (C51.lib html) 10 (C51.docOf [.table [("cols", .cols [some defaultCol])] (some [[.paragraph [] [.str "Lost".toList]]]) [] none])
        (C51.plainConfig []) = .ok "<table class=\"tableblock frame-all grid-all stretch\">\n</table>\n".toList ∧
    render (C51.lib html) 10 (C51.docOf [.table [] (some [[.paragraph [] [.str "Lost".toList]]]) [] none]) (C51.plainConfig []) = .error .panic :=
  ⟨by apply C51.rendered; decide +kernel, rfl⟩

/-- The title of a quote, when the author is given but empty. -/
theorem finding_quote_title :
    render (C51.lib html) 10 (C51.docOf [.block .quote [("quoteAuthor", .str []), ("quoteTitle", .str "Lost".toList)] []]) (C51.plainConfig []) =
      .ok "<div class=\"quoteblock\">\n<blockquote>\n</blockquote>\n</div>\n".toList :=
  by apply C51.rendered; decide +kernel

/-- The title of a passthrough block. -/
theorem finding_pass_title :
    render (C51.lib html) 10 (C51.docOf [.block .pass [("title", .str "Lost".toList)] [.str "x".toList]]) (C51.plainConfig []) =
      .ok "x\n".toList :=
  by apply C51.rendered; decide +kernel

/-- In a manual page, everything after the first paragraph of the first section, up to the next section. -/
theorem finding_manpage :
    render (C51.lib html) 10 (C51.docOf [.sect 1 [] [.str "Name".toList] [.paragraph [] [.str "x".toList], .paragraph [] [.str "Lost".toList]]])
        (C51.plainConfig [("doctype", .str "manpage".toList)]) =
      .ok "<h2 id=\"_name\">Name</h2>\n<div class=\"sectionbody\">\n<p>x</p>\n</div>\n".toList :=
  by apply C51.rendered; decide +kernel

/-- A table of contents placed in the preamble is not written if the document has no header. -/
theorem finding_preamble_toc :
    render (C51.lib html) 10 ⟨[.preamble [.paragraph [] [.str "x".toList]] none, .sect 1 [("id", .str "_a".toList)] [.str "A".toList] []],
        [("_a".toList, .els [.str "A".toList])], [], some (some [.entry "_a".toList 1 [] [] []])⟩ (C51.plainConfig [("toc", .str "preamble".toList)]) =
      .ok "<div class=\"paragraph\">\n<p>x</p>\n</div>\n<div class=\"sect1\">\n<h2 id=\"_a\">A</h2>\n<div class=\"sectionbody\">\n</div>\n</div>\n".toList :=
  by apply C51.rendered; decide +kernel

end C52
end Verif
