import Verif.Proofs.RenderDoc
/-!
C51: the output is well-formed.

`render` (Model/Render.lean) is `pkg/renderer/sgml`, with the templates of `html5` or of `xhtml5`; `Markup` and `Page`
(Spec/Markup.lean, Spec/Clean.lean) say what a well-formed fragment and a well-formed page are; `CleanDoc` (Spec/Clean.lean) says what
is required of the document.  The theorems hold for every depth `n` to which the elements are rendered.
-/
namespace Verif
namespace C51
open Verif.Rend Verif.Html

/-- The output of the renderer, for a document whose texts have no raw tags and whose attribute values have no quotes, is well-formed:
every element that is opened is closed, in order, and every attribute value is quoted. -/
theorem output_wellformed {R : Rules} {images : Bool} {L : Lib} (hL : LibOk R L) {d : Doc} {cfg : Config}
    (hd : CleanDoc R images d cfg) (n : Nat) {t : Text} (h : render L n d cfg = .ok t) :
    (cfg.wrap = false → Markup R t) ∧ (cfg.wrap = true → Page R t) := by
  have := render_ok hL hd n h
  constructor
  · intro hw; rw [hw] at this; exact this
  · intro hw; rw [hw] at this; exact this

/-- HTML. -/
theorem html_wellformed {images : Bool} {L : Lib} (hL : LibOk html L) {d : Doc} {cfg : Config}
    (hd : CleanDoc html images d cfg) (n : Nat) {t : Text} (h : render L n d cfg = .ok t) :
    (cfg.wrap = false → Markup html t) ∧ (cfg.wrap = true → Page html t) := output_wellformed hL hd n h

/-- XHTML. -/
theorem xhtml_wellformed {images : Bool} {L : Lib} (hL : LibOk xhtml L) {d : Doc} {cfg : Config}
    (hd : CleanDoc xhtml images d cfg) (n : Nat) {t : Text} (h : render L n d cfg = .ok t) :
    (cfg.wrap = false → Markup xhtml t) ∧ (cfg.wrap = true → Page xhtml t) := output_wellformed hL hd n h

/-- Every element by itself: what it is rendered as is well-formed, whatever the context in which it is rendered. -/
theorem element_wellformed {R : Rules} {images : Bool} {L : Lib} (hL : LibOk R L) (n : Nat) {e : El} (he : Clean R images e)
    {c c' : Rend.Ctx} (hc : Rend.Inv R images c) {t : Text} (h : renderElement L n e c = .ok (t, c')) : Markup R t :=
  ((within_all hL n).markup e he c t c' hc h).1

/-! ### Functions of the standard library -/

def lowerChar (c : Char) : Char := if 'A' ≤ c ∧ c ≤ 'Z' then Char.ofNat (c.toNat + 32) else c

/-- Simple functions in place of those of the standard library, with the templates of the language. -/
def lib (R : Rules) : Lib where
  tmpl := templatesOf R
  lower := List.map lowerChar
  sprint _ := []
  sprintEl _ := []
  urlAbs _ := some false
  altOf t := some (t.takeWhile (· != '.'))
  join t u := t ++ "/".toList ++ u
  atoi _ := 0
  widths _ cols := cols.map (fun _ => "50".toList)
  highlight _ _ _ t := some (Escape.escapeString t)
  userMacro _ := none
  dataUri t := t

theorem upper_cases {P : Nat → Prop} (h : ∀ k, k < 26 → P (65 + k)) {n : Nat} (h1 : 65 ≤ n) (h2 : n ≤ 90) : P n := by
  have := h (n - 65) (by omega)
  rwa [show 65 + (n - 65) = n by omega] at this

theorem lowerChar_ok (c : Char) : lowerChar c = c ∨ (lowerChar c ≠ '<' ∧ lowerChar c ≠ '>' ∧ lowerChar c ≠ '"' ∧ lowerChar c ≠ '\n') := by
  unfold lowerChar
  split
  · rename_i h
    right
    have h1 : 65 ≤ c.toNat := h.1
    have h2 : c.toNat ≤ 90 := h.2
    revert h1 h2
    generalize c.toNat = n
    intro h1 h2
    exact upper_cases (P := fun n => Char.ofNat (n + 32) ≠ '<' ∧ Char.ofNat (n + 32) ≠ '>' ∧ Char.ofNat (n + 32) ≠ '"' ∧ Char.ofNat (n + 32) ≠ '\n')
      (by decide +kernel) h1 h2
  · left; rfl

theorem lib_ok (R : Rules) : LibOk R (lib R) where
  tmpl := rfl
  lower t ht c hc := by
    obtain ⟨d, hd, rfl⟩ := List.mem_map.mp hc
    rcases lowerChar_ok d with e | e
    · rw [e]; exact ht d hd
    · exact ⟨e.2.2.1, e.1, fun _ => e.2.2.2⟩
  lowerPlain t ht c hc := by
    obtain ⟨d, hd, rfl⟩ := List.mem_map.mp hc
    rcases lowerChar_ok d with e | e
    · rw [e]; exact ht d hd
    · exact ⟨e.1, e.2.1⟩
  lowerStyles := by
    show ∀ p ∈ admonitionNames, List.map lowerChar p.1 = p.2 ∧ List.map lowerChar p.2 = p.2
    decide +kernel
  sprintFlag _ := Safe.nil
  sprintNum _ := Safe.nil
  sprintRoles _ _ := Safe.nil
  altOf t u ht _ e := by
    cases e
    exact ht.sub fun c hc => (List.takeWhile_prefix _).subset hc
  join t u ht hu := (ht.append (safe_lit (by decide))).append hu
  widths _ cols t ht := by
    obtain ⟨_, _, rfl⟩ := List.mem_map.mp ht
    exact (safe_lit (by decide)).2
  highlight _ _ _ t u e := by cases e; exact (plain_escape t).markup
  userMacro _ _ h := nomatch h
  dataUri t ht := ⟨ht, fun h => h⟩

/-! ### The hypotheses are met -/

/-- A document with a header, a section, a paragraph, a list, a table, an image and a footnote. -/
def sample : Doc where
  elements :=
    [.docHeader [] (some [.str "The Title".toList])
      [.attrDecl "authors" (.authors [⟨some ⟨"Ann".toList, [], "Lee".toList⟩, "a@b.c".toList⟩]), .attrDecl "sectnums" (.str [])],
     .sect 1 [("id", .str "_First".toList)] [.str "First ".toList, .quoted .bold [] [.str "part".toList]]
      [.paragraph [("roles", .roles [.str "lead".toList])] [.str "a ".toList, .special "<".toList, .str " b ".toList,
         .link (some (.loc 0 "https://".toList (.str "x.y/?a=\"".toList))) [], .footnoteRef 1 [] false],
       .list .unordered [] [.item .unordered [.paragraph [] [.str "one".toList]] [] [] "nocheck".toList 0],
       .table [("cols", .cols [some ⟨2, "<".toList, "^".toList, 1, [], false⟩])] none
         [[[.paragraph [] [.str "x".toList]], [.paragraph [] [.str "y".toList]]]] none,
       .imageBlock (.loc 1 [] (.str "img.png".toList)) [("title", .els [.str "T".toList])]]]
  refs := [("_First".toList, .els [.str "First".toList])]
  footnotes := [⟨1, [], [.str "note".toList]⟩]
  toc := some (some [.entry "_First".toList 1 [] [] []])

def sampleConfig (wrap : Bool) : Config := ⟨[("toc", .str [])], wrap, ["a.css".toList], "now".toList⟩

section
variable {R : Rules} {images : Bool}

theorem attrs_nil : ∀ k v, AMap.get ([] : Rend.Attrs) k = some v → CleanV R images k v := fun _ _ h => nomatch h

theorem attrs_one {k : String} {v : AV} (h : CleanV R images k v) : ∀ k' v', AMap.get ([(k, v)] : Rend.Attrs) k' = some v' → CleanV R images k' v' := by
  intro k' v' e
  rw [AMap.get_cons] at e
  split at e
  · rename_i e1; cases e; cases e1; exact h
  · cases e

theorem els_one {P : El → Prop} {e : El} (h : P e) : ∀ x ∈ [e], P x := fun x hx => by rw [List.mem_singleton] at hx; subst hx; exact h

theorem els_cons {P : El → Prop} {e : El} {l : List El} (h : P e) (hl : ∀ x ∈ l, P x) : ∀ x ∈ e :: l, P x := fun x hx =>
  (List.mem_cons.mp hx).elim (fun e => e ▸ h) (hl x)

theorem str_clean (t : String) (h : t.toList.all (fun c => c != '<' && c != '>') = true) : Clean R images (.str t.toList) := .str (plain_lit h)

/-- A paragraph without style, whose strings have no tags. -/
theorem para_clean {a : List (String × AV)} {l : List El} (ha : ∀ k v, AMap.get a k = some v → CleanV R images k v)
    (hl : ∀ e ∈ l, Clean R images e) (hs : ∀ k ∈ ["style", "hardbreaks", "options"], AMap.get a k = none) : Clean R images (.paragraph a l) := by
  have h1 : getStr a "style" = none := by
    unfold getStr
    have : AMap.get a "style" = none := hs _ (by decide)
    show (match AMap.get a "style" with | some (.str t) => some t | _ => none) = none
    rw [this]
  refine .paragraph ha (fun e he _ => hl e he) (fun t => filled_all fun u hu => ?_) ?_ ?_ ?_ ?_
  · cases hl _ hu with | str h => exact h
  · unfold hasOption has
    show ((match AMap.get a "options" with | some (.options l) => l.any (AV.isStr "hardbreaks".toList) | _ => false) ||
      (AMap.get a "hardbreaks").isSome) = true → _
    rw [hs "options" (by decide), hs "hardbreaks" (by decide)]
    exact fun h => by cases h
  · rw [h1]; exact fun h => by cases h
  · rw [h1]; exact fun h => by rcases h with h | h <;> cases h
  · rw [h1]; rintro _ ⟨_, _, h⟩; cases h

theorem sample_clean (wrap : Bool) : CleanDoc R images sample (sampleConfig wrap) where
  elements := by
    refine els_cons (.docHeader attrs_nil ?_ ?_ ?_) (els_one (.sect (attrs_one (.scalar (safe_lit (t := "_First".toList) (by decide) : Safe R "_First".toList))) ?_ ?_))
    · rintro _ ⟨rfl⟩; exact els_one (str_clean "The Title" (by decide))
    · rintro _ ⟨rfl⟩; exact els_one (.str (plain_lit (by decide)))
    · refine els_cons (.attrDecl (.value ?_)) (els_one (.attrDecl (docV_str Safe.nil (by decide))))
      refine ⟨fun h => absurd h not_printed_authors, fun e => absurd e (by decide), fun _ e => absurd e (by decide),
        fun e => absurd e (by decide), fun e => absurd e (by decide), fun e => absurd e (by decide), fun _ l e => ?_,
        fun e => absurd e (by decide)⟩
      cases e
      intro a ha
      rw [List.mem_singleton] at ha; subst ha
      exact ⟨safe_lit (by decide), fun n hn => by cases hn; exact ⟨safe_lit (by decide), Safe.nil, safe_lit (by decide)⟩⟩
    · exact els_cons (str_clean "First " (by decide)) (els_one (.quoted attrs_nil (els_one (str_clean "part" (by decide)))))
    · refine els_cons (para_clean (attrs_one (.roles ?_)) ?_ (by decide)) (els_cons ?_ (els_cons ?_ (els_one ?_)))
      · intro v hv
        rw [List.mem_singleton] at hv; subst hv
        exact (safe_lit (t := "lead".toList) (by decide) : Safe R "lead".toList)
      · refine els_cons (str_clean "a " (by decide)) (els_cons .special (els_cons (str_clean " b " (by decide))
          (els_cons (.link attrs_nil ?_) (els_one (.footnoteRef Safe.nil)))))
        rintro _ ⟨rfl⟩
        refine ⟨_, rfl, fun _ h => ?_⟩
        exact absurd h (by decide)
      · refine .list attrs_nil ?_ ?_ ?_ (fun _ h => nomatch h) (fun h => nomatch h)
        · intro i hi
          rw [List.mem_singleton] at hi; subst hi
          exact els_one (para_clean attrs_nil (els_one (str_clean "one" (by decide))) (by decide))
        · intro i hi
          rw [List.mem_singleton] at hi; subst hi
          exact fun _ h => nomatch h
        · intro i hi
          rw [List.mem_singleton] at hi; subst hi
          exact Safe.nil
      · refine .table (attrs_one (.cols ?_)) (fun _ h => nomatch h) ?_ (fun _ h => nomatch h)
        · intro c hc
          rw [List.mem_singleton] at hc
          cases hc
          exact ⟨Or.inl rfl, Or.inr (Or.inl rfl)⟩
        · intro row hrow
          rw [List.mem_singleton] at hrow; subst hrow
          intro c hc
          rcases List.mem_cons.mp hc with rfl | hc
          · exact els_one (para_clean attrs_nil (els_one (str_clean "x" (by decide))) (by decide))
          · rw [List.mem_singleton] at hc; subst hc
            exact els_one (para_clean attrs_nil (els_one (str_clean "y" (by decide))) (by decide))
      · exact .imageBlock (attrs_one (.els (by decide) (els_one (str_clean "T" (by decide))))) ⟨_, rfl, safe_lit (by decide)⟩
          (Or.inr ⟨_, rfl, by decide⟩)
  refs := by
    intro p hp
    rw [show sample.refs = [("_First".toList, .els [.str "First".toList])] from rfl, List.mem_singleton] at hp
    subst hp
    refine .els (els_one (str_clean "First" (by decide))) ?_
    intro loc a h
    rw [List.mem_singleton] at h
    cases h
  footnotes := by
    intro p hp
    rw [show sample.footnotes = [⟨1, [], [.str "note".toList]⟩] from rfl, List.mem_singleton] at hp
    subst hp
    exact els_one (str_clean "note" (by decide))
  toc := by
    rintro s ⟨rfl⟩
    intro e he
    rw [List.mem_singleton] at he
    subst he
    exact .entry (safe_lit (by decide)).2 (fun _ h => nomatch h)
  attrs := by
    intro k v h
    have h : AMap.get [("toc", AV.str [])] k = some v := h
    rw [AMap.get_cons] at h
    split at h
    · rename_i e; cases h; cases e; exact docV_str Safe.nil (by decide)
    · cases h
  css := by
    intro t ht
    have ht : t ∈ ["a.css".toList] := ht
    rw [List.mem_singleton] at ht
    subst ht
    exact (safe_lit (by decide)).2
  lastUpdated := by show Plain "now".toList; exact plain_lit (by decide)

/-- The theorems apply to the page made of the sample. -/
example : ∃ t, render (lib html) 10 sample (sampleConfig true) = .ok t ∧ Page html t := by
  cases h : render (lib html) 10 sample (sampleConfig true) with
  | error e => have : (render (lib html) 10 sample (sampleConfig true)).toOption.isSome = true := by decide +kernel
               rw [h] at this; cases this
  | ok t => exact ⟨t, rfl, (html_wellformed (lib_ok html) (images := false) (sample_clean true) 10 h).2 rfl⟩

end

/-! ### Documents that are not clean

Each of the conditions in `Clean` is there because the renderer needs it: what it writes otherwise is not well-formed. -/

def docOf (l : List El) : Doc where
  elements := l
  refs := []
  footnotes := []
  toc := none

def plainConfig (a : Rend.Attrs) : Config := ⟨a, false, [], []⟩

theorem rendered {ε : Type} {r : Except ε Text} {t : Text} (h : r.toOption = some t) : r = .ok t := by
  cases r with
  | error e => cases h
  | ok u => cases h; rfl

/-- `{lt}` is written `<` (and `{gt}` `>`), not `&lt;`: predefinedAttribute in pkg/renderer/sgml/predefined_attribute.go. -/
theorem finding_lt :
    render (lib html) 10 (docOf [.paragraph [] [.predefined "lt"]]) (plainConfig []) =
      .ok "<div class=\"paragraph\">\n<p><</p>\n</div>\n".toList ∧
    ¬ Markup html "<div class=\"paragraph\">\n<p><</p>\n</div>\n".toList :=
  by refine ⟨rendered ?_, ?_⟩ <;> decide +kernel

/-- A button without label is written `<no value>`. -/
theorem finding_no_label :
    render (lib html) 10 (docOf [.paragraph [] [.button []]]) (plainConfig []) =
      .ok "<div class=\"paragraph\">\n<p><b class=\"button\"><no value></b></p>\n</div>\n".toList ∧
    ¬ Markup html "<div class=\"paragraph\">\n<p><b class=\"button\"><no value></b></p>\n</div>\n".toList :=
  by refine ⟨rendered ?_, ?_⟩ <;> decide +kernel

/-- An icon, with `icons` set to `image`, whose `alt` is empty: there is a stray quote in the tag. -/
theorem finding_icon_alt :
    render (lib html) 10 (docOf [.paragraph [] [.icon "x".toList [("alt", .str [])]]]) (plainConfig [("icons", .str "image".toList)]) =
      .ok "<div class=\"paragraph\">\n<p><span class=\"icon\"><img src=\"./images/icons/x.png\"\"></span></p>\n</div>\n".toList ∧
    ¬ Markup html "<div class=\"paragraph\">\n<p><span class=\"icon\"><img src=\"./images/icons/x.png\"\"></span></p>\n</div>\n".toList :=
  by refine ⟨rendered ?_, ?_⟩ <;> decide +kernel

/-- The values of attributes are written as they are: quotes in the alternative text of an image. -/
theorem finding_alt_quotes :
    render (lib html) 10 (docOf [.paragraph [] [.inlineImage (.loc 0 [] (.str "a.png".toList)) [("alt", .str "a \"b\"".toList)]]]) (plainConfig []) =
      .ok "<div class=\"paragraph\">\n<p><span class=\"image\"><img src=\"a.png\" alt=\"a \"b\"\"></span></p>\n</div>\n".toList ∧
    ¬ Markup html "<div class=\"paragraph\">\n<p><span class=\"image\"><img src=\"a.png\" alt=\"a \"b\"\"></span></p>\n</div>\n".toList :=
  by refine ⟨rendered ?_, ?_⟩ <;> decide +kernel

/-- The title of an image, when it has quoted text, is written with its tags within an attribute value. -/
theorem finding_title_markup :
    render (lib html) 10 (docOf [.paragraph [] [.inlineImage (.loc 0 [] (.str "a.png".toList)) [("title", .els [.quoted .bold [] [.str "b".toList]])]]]) (plainConfig []) =
      .ok "<div class=\"paragraph\">\n<p><span class=\"image\"><img src=\"a.png\" alt=\"a\" title=\"<strong>b</strong>\"></span></p>\n</div>\n".toList ∧
    ¬ Markup html "<div class=\"paragraph\">\n<p><span class=\"image\"><img src=\"a.png\" alt=\"a\" title=\"<strong>b</strong>\"></span></p>\n</div>\n".toList :=
  by refine ⟨rendered ?_, ?_⟩ <;> decide +kernel

/-- A horizontal labeled list whose last item has no content: the row of the table is left open. -/
theorem finding_horizontal :
    render (lib html) 10 (docOf [.list .labeled [("style", .str "horizontal".toList)] [.item .labeled [] [.str "term".toList] [] [] 0]]) (plainConfig []) =
      .ok "<div class=\"hdlist\">\n<table>\n<tr>\n<td class=\"hdlist1\">\nterm\n</table>\n</div>\n".toList ∧
    ¬ Markup html "<div class=\"hdlist\">\n<table>\n<tr>\n<td class=\"hdlist1\">\nterm\n</table>\n</div>\n".toList :=
  by refine ⟨rendered ?_, ?_⟩ <;> decide +kernel

/-- In XHTML, the break between the author and the title of a Markdown quote is not closed. -/
theorem finding_xhtml_quote :
    render (lib xhtml) 10 (docOf [.block .markdownQuote [("quoteAuthor", .str "A".toList), ("quoteTitle", .str "T".toList)] [.str "t".toList]]) (plainConfig []) =
      .ok "<div class=\"quoteblock\">\n<blockquote>\n<div class=\"paragraph\">\n<p>t</p>\n</div>\n</blockquote>\n<div class=\"attribution\">\n&#8212; A<br>\n<cite>T</cite>\n</div>\n</div>\n".toList ∧
    ¬ Markup xhtml "<div class=\"quoteblock\">\n<blockquote>\n<div class=\"paragraph\">\n<p>t</p>\n</div>\n</blockquote>\n<div class=\"attribution\">\n&#8212; A<br>\n<cite>T</cite>\n</div>\n</div>\n".toList :=
  by refine ⟨rendered ?_, ?_⟩ <;> decide +kernel

/-- In XHTML, `reversed` is written without value. -/
theorem finding_xhtml_reversed :
    render (lib xhtml) 10 (docOf [.list .ordered [("options", .options [.str "reversed".toList])] [.item .ordered [.paragraph [] [.str "one".toList]] [] "arabic".toList [] 0]]) (plainConfig []) =
      .ok "<div class=\"olist arabic\">\n<ol class=\"arabic\" reversed>\n<li>\n<p>one</p>\n</li>\n</ol>\n</div>\n".toList ∧
    ¬ Markup xhtml "<div class=\"olist arabic\">\n<ol class=\"arabic\" reversed>\n<li>\n<p>one</p>\n</li>\n</ol>\n</div>\n".toList :=
  by refine ⟨rendered ?_, ?_⟩ <;> decide +kernel

/-- In XHTML, the checkbox of an interactive list item is neither closed nor are its attributes given values. -/
theorem finding_xhtml_checkbox :
    render (lib xhtml) 10 (docOf [.list .unordered [] [.item .unordered [.paragraph [("checkstyle", .check "checked-interactive".toList)] [.str "one".toList]] [] [] [] 0]]) (plainConfig []) =
      .ok "<div class=\"ulist checklist\">\n<ul class=\"checklist\">\n<li>\n<p><input type=\"checkbox\" data-item-complete=\"1\" checked> one</p>\n</li>\n</ul>\n</div>\n".toList ∧
    ¬ Markup xhtml "<div class=\"ulist checklist\">\n<ul class=\"checklist\">\n<li>\n<p><input type=\"checkbox\" data-item-complete=\"1\" checked> one</p>\n</li>\n</ul>\n</div>\n".toList :=
  by refine ⟨rendered ?_, ?_⟩ <;> decide +kernel

/-- An identifier with quotes adds attributes to the tag: well-formed, but not what was meant. -/
theorem finding_injection :
    render (lib html) 10 (docOf [.paragraph [] [.xref (.str "a\" onclick=\"x".toList) (.str "y".toList)]]) (plainConfig []) =
      .ok "<div class=\"paragraph\">\n<p><a href=\"#a\" onclick=\"x\">y</a></p>\n</div>\n".toList :=
  by apply rendered; decide +kernel

/-- The roles of a literal block are written outside of the `class` attribute. -/
theorem finding_literal_roles :
    render (lib html) 10 (docOf [.block .literal [("roles", .roles [.str "r".toList])] [.str "t".toList]]) (plainConfig []) =
      .ok "<div class=\"literalblock\" r>\n<div class=\"content\">\n<pre>t</pre>\n</div>\n</div>\n".toList :=
  by apply rendered; decide +kernel

/-- A verse paragraph with a special character: the renderer calls a nil function. -/
theorem finding_verse_panic :
    render (lib html) 10 (docOf [.paragraph [("style", .str "verse".toList)] [.special "<".toList]]) (plainConfig []) = .error .panic :=
  rfl

end C51
end Verif
