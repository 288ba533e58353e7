import Verif.Proofs.RenderInline
/-!
The renderer writes well-formed fragments: paragraphs and delimited blocks.
-/
namespace Verif.Rend
open Verif.Html Verif.Tmpl

section
variable {R : Rules} {images : Bool} {L : Lib} {re : El → M Text} {pl : Bool → El → Except Err Text}
  (hL : LibOk R L) (hW : Within R images re pl)

theorem check_clean {k : String} {t : Text} (h : CleanV R images k (.check t)) :
    R.xml = true → t ≠ "checked-interactive".toList ∧ t ≠ "unchecked-interactive".toList := by
  cases h with
  | scalar h => exact h.elim
  | check h => exact h

theorem checkStyle_markup {a : Attrs} (ha : AttrsOk R images a) : Markup R (checkStyle (AMap.get a "checkstyle")) := by
  cases hg : AMap.get a "checkstyle" with
  | none => exact .empty
  | some v =>
    cases v with
    | check t =>
      have h := check_clean (ha _ _ hg)
      unfold checkStyle
      dsimp only
      split
      · exact (safe_lit (R := R) (by decide)).1.markup
      · split
        · rename_i e
          have hx : R.xml = false := by
            cases hx : R.xml with
            | false => rfl
            | true => exact absurd e (h hx).1
          obtain ⟨x, o⟩ := R
          cases hx
          clear ha h
          exact markup_iff.mpr (by revert o; decide +kernel)
        · split
          · exact (safe_lit (R := R) (by decide)).1.markup
          · split
            · rename_i e
              have hx : R.xml = false := by
                cases hx : R.xml with
                | false => rfl
                | true => exact absurd e (h hx).2
              obtain ⟨x, o⟩ := R
              cases hx
              clear ha h
              exact markup_iff.mpr (by revert o; decide +kernel)
            · exact .empty
    | _ => exact .empty

theorem inBlock_sat {P : Text → Prop} {m : M Text} (h : Sat R images P m) : Sat R images P (inBlock m) := by
  unfold inBlock
  refine Sat.get.bind fun c _ => ?_
  refine Sat.bind (P := fun _ => True) (Sat.modify ?_) fun _ _ => h.bind fun t ht => ?_
  · exact fun c hc => ⟨hc.attrs, hc.refs, hc.numbers, hc.prefixes⟩
  refine Sat.bind (P := fun _ => True) (Sat.modify ?_) fun _ _ => Sat.pure ht
  exact fun c hc => ⟨hc.attrs, hc.refs, hc.numbers, hc.prefixes⟩

theorem doc_hardbreaks {a : Attrs} (ha : DocOk R images a) (h : hasOption a "hardbreaks" = true) : R.oneLine = true := by
  unfold hasOption at h
  rcases Bool.or_eq_true_iff.mp h with h | h
  · split at h
    · rename_i l e
      exact absurd rfl ((docV_value (ha _ _ e) (by decide)).options rfl l)
    · cases h
  · unfold has at h
    obtain ⟨v, hv⟩ := Option.isSome_iff_exists.mp h
    exact (docV_value (ha _ _ hv) (by decide)).hardbreaks rfl

/-- What is required of the elements of a block. -/
def ElsOk (R : Rules) (images : Bool) (l : List El) : Prop := (∀ e ∈ l, e.isStr = false → Clean R images e) ∧ Balanced R l

include hW in
theorem renderEls_sat {l : List El} (h : ElsOk R images l) : Sat R images (Markup R) (renderAll re l) :=
  renderAll_balanced hW h.1 h.2

include hL hW in
theorem paragraphElements_sat {a : Attrs} {l : List El} (hl : ElsOk R images l)
    (hh : hasOption a "hardbreaks" = true → R.oneLine = true) : Sat R images (Markup R) (paragraphElements L re a l) := by
  unfold paragraphElements
  refine docAttrs_sat.bind fun doc hd => (renderEls_sat hW hl).bind fun t ht => Sat.ite (fun h => ?_) fun _ => Sat.pure ht
  have ho : R.oneLine = true := (Bool.or_eq_true_iff.mp h).elim hh (doc_hardbreaks hd)
  refine Sat.bind (P := Markup R) (exec_sat hL lineBreak_ok (by fits) holds_nil) fun br hbr => Sat.pure ?_
  exact markup_hardbreaks ho hbr ht

theorem markup_trimNL {t : Text} (h : Markup R t) : Markup R (trim (· == '\n') t) := markup_trim nl_noTag h

include hL hW in
theorem regularParagraph_sat {a : Attrs} {l : List El} (ha : AttrsOk R images a) (hl : ElsOk R images l)
    (hh : hasOption a "hardbreaks" = true → R.oneLine = true) : Sat R images (Markup R) (regularParagraph L re a l) := by
  unfold regularParagraph
  refine (paragraphElements_sat hL hW hl hh).bind fun content hc => (elementRoles_sat hW ha).bind fun roles hr =>
    (elementTitle_sat hW ha).bind fun title ht => ?_
  have h1 := elementID_value ha
  have h2 := markup_trimNL hc
  clear hh
  exact exec_sat hL paragraph_ok (by fits) holds_nil

include hL hW in
theorem manpageNameParagraph_sat {l : List El} (hl : ElsOk R images l) : Sat R images (Markup R) (manpageNameParagraph L re l) :=
  (renderEls_sat hW hl).bind fun _ hc => exec_sat hL manpageNameParagraph_ok (by fits) holds_nil

include hL hW in
theorem embeddedParagraph_sat {a : Attrs} {l : List El} (ha : AttrsOk R images a) (hl : ElsOk R images l) :
    Sat R images (Markup R) (embeddedParagraph L re a l) := by
  unfold embeddedParagraph
  refine (renderEls_sat hW hl).bind fun content hc => ?_
  have h1 := checkStyle_markup ha
  have h2 := markup_trimSpaces hc
  have h3 := (Safe.nil (R := R)).2
  exact exec_sat hL embeddedParagraph_ok (by fits) holds_nil

theorem nl_markup : Markup R "\n".toList := (safe_lit' : Plain "\n".toList).markup
where safe_lit' : Plain "\n".toList := plain_lit (by decide)

include hL hW in
theorem exampleParagraph_sat {a : Attrs} {l : List El} (ha : AttrsOk R images a) (hl : ElsOk R images l) :
    Sat R images (Markup R) (exampleParagraph L re a l) := by
  unfold exampleParagraph
  refine (renderEls_sat hW hl).bind fun content hc => (elementRoles_sat hW ha).bind fun roles hr =>
    (elementTitle_sat hW ha).bind fun title ht => ?_
  have h1 := elementID_value ha
  have h2 := hc.append nl_markup
  have h3 := Markup.empty (R := R)
  refine exec_sat hL exampleBlock_ok ?_ holds_nil
  apply fits_of
  simp only [blockEnv, exampleBlockFields, AMap.get_cons]
  simp [*] at *
  exact h2

include hL hW in
theorem listingParagraph_sat {a : Attrs} {l : List El} (ha : AttrsOk R images a) (hl : ElsOk R images l) :
    Sat R images (Markup R) (listingParagraph L re a l) := by
  unfold listingParagraph
  refine (renderEls_sat hW hl).bind fun content hc => (elementRoles_sat hW ha).bind fun roles hr =>
    (elementTitle_sat hW ha).bind fun title ht => ?_
  have h1 := elementID_value ha
  exact exec_sat hL listingBlock_ok (by fits) holds_nil

theorem highlighted_sat {P : Text → Prop} {h : Option Text} (hh : ∀ t, h = some t → P t) : Sat R images P (highlighted h) := by
  cases h with
  | none => exact Sat.error
  | some t => exact Sat.pure (hh t rfl)

include hL in
theorem calloutsAll_sat : ∀ {l : List Int}, Sat R images (Markup R) (calloutsAll L l)
  | [] => Sat.pure .empty
  | _ :: _ => (renderCallout_sat hL).bind fun _ ht => calloutsAll_sat.bind fun _ hu => Sat.pure (ht.append hu)

theorem sourceLine_sat : ∀ {l : List El}, Sat R images (fun _ => True) (sourceLine l)
  | [] => Sat.pure trivial
  | e :: l => by
    have ih := sourceLine_sat (l := l)
    cases e <;> first | exact ih.bind fun _ _ => Sat.pure trivial | exact Sat.error

include hL in
theorem sourceLines_sat {a : Attrs} : ∀ {ls : List (List El)} {i : Nat}, Sat R images (Markup R) (sourceLines L a i ls)
  | [], _ => Sat.pure .empty
  | line :: ls, i => by
    refine Sat.bind (P := fun _ => True) sourceLine_sat fun tc _ => docAttrs_sat.bind fun doc _ => ?_
    refine Sat.bind (P := Markup R) (highlighted_sat fun t e => hL.highlight _ _ _ _ _ e) fun h hh => ?_
    refine (calloutsAll_sat hL).bind fun cs hcs => (sourceLines_sat (ls := ls)).bind fun u hu => Sat.pure ?_
    refine Markup.append ((hh.append hcs).append ?_) hu
    split
    · exact .empty
    · exact nl_markup

include hL hW in
theorem sourceContent_sat {a : Attrs} {l : List El} (ha : AttrsOk R images a) (hl : ElsOk R images l) :
    Sat R images (fun r : Text × Text × Text => Markup R r.1 ∧ Value R r.2.1 ∧ Value R r.2.2) (sourceContent L re a l) := by
  unfold sourceContent
  refine docAttrs_sat.bind fun doc hd => ?_
  have h1 := (doc_getStrD hL hd (k := "source-highlighter") (by decide) (printed_mem (by decide)) Safe.nil).2
  have h2 := (getStrD_safe hL ha (k := "language") (by decide) Safe.nil).2
  refine Sat.bind (P := Markup R) (inBlock_sat ?_) fun t ht => Sat.pure ⟨ht, h1, h2⟩
  exact Sat.ite (fun _ => renderEls_sat hW hl) fun _ => sourceLines_sat hL

include hL hW in
theorem sourceBlock_sat {a : Attrs} {l : List El} (ha : AttrsOk R images a) (hl : ElsOk R images l) :
    Sat R images (Markup R) (sourceBlock L re a l) := by
  unfold sourceBlock
  refine (sourceContent_sat hL hW ha hl).bind fun r hrr => (elementRoles_sat hW ha).bind fun roles hr =>
    (elementTitle_sat hW ha).bind fun title ht => ?_
  obtain ⟨content, hi, lang⟩ := r
  obtain ⟨hc, h3, h4⟩ := hrr
  have h1 := elementID_value ha
  have h2 := markup_trimNL hc
  exact exec_sat hL sourceBlock_ok (by fits) holds_nil

theorem attribution_plain {a : Attrs} (ha : AttrsOk R images a) :
    Plain (attribution a).1 ∧ Plain (attribution a).2 := by
  have h2 : Plain ((getStr a "quoteTitle").getD []) := by
    cases h : getStr a "quoteTitle" with
    | none => exact fun _ h => nomatch h
    | some t => exact getStr_plain ha h
  unfold attribution
  split
  · rename_i t e; exact ⟨getStr_plain ha e, h2⟩
  · exact ⟨h2, fun _ h => nomatch h⟩

theorem attribution_markup {a : Attrs} (ha : AttrsOk R images a) :
    Markup R (attribution a).1 ∧ Markup R (attribution a).2 :=
  ⟨(attribution_plain ha).1.markup, (attribution_plain ha).2.markup⟩

include hW in
theorem plainAll_markup {b : Bool} : ∀ {l : List El}, (∀ e ∈ l, TextClean e) → ∀ t, plainAll (pl b) l = .ok t → Markup R t
  | [], _, t, h => by cases h; exact .empty
  | e :: l, hl, t, h => by
    unfold plainAll at h
    cases h1 : pl b e with
    | error x => rw [h1] at h; cases h
    | ok u =>
      cases h2 : plainAll (pl b) l with
      | error x => rw [h1, h2] at h; cases h
      | ok w =>
        rw [h1, h2] at h
        cases h
        exact (hW.plain b e (hl e (List.mem_cons_self ..)) u h1).append
          (plainAll_markup (fun x hx => hl x (List.mem_cons_of_mem _ hx)) w h2)

include hL hW in
theorem verseParagraph_sat {a : Attrs} {l : List El} (ha : AttrsOk R images a) (hl : ∀ e ∈ l, TextClean e) :
    Sat R images (Markup R) (verseParagraph L re pl a l) := by
  unfold verseParagraph
  refine Sat.bind (P := Markup R) (Sat.lift (plainAll_markup hW hl)) fun content hc => (elementTitle_sat hW ha).bind fun title ht => ?_
  have h1 := elementID_value ha
  obtain ⟨h2, h3⟩ := attribution_markup ha
  have h4 := (Safe.nil (R := R)).2
  exact exec_sat hL verseParagraph_ok (by fits) holds_nil

include hL hW in
theorem quoteParagraph_sat {a : Attrs} {l : List El} (ha : AttrsOk R images a) (hl : ElsOk R images l)
    (hh : hasOption a "hardbreaks" = true → R.oneLine = true) : Sat R images (Markup R) (quoteParagraph L re a l) := by
  unfold quoteParagraph
  refine (paragraphElements_sat hL hW hl hh).bind fun content hc => (elementTitle_sat hW ha).bind fun title ht => ?_
  have h1 := elementID_value ha
  obtain ⟨h2, h3⟩ := attribution_markup ha
  have h4 := (Safe.nil (R := R)).2
  clear hh
  exact exec_sat hL quoteParagraph_ok (by fits) holds_nil

include hL in
theorem lower_safe {t : Text} (h : Safe R t) : Safe R (L.lower t) := ⟨hL.lowerPlain _ h.1, hL.lower _ h.2⟩

include hL in
theorem lower_style {t : Text} (h : t ∈ admonitionStyles) : L.lower t ∈ admonitionNames.map (·.2) ∧
    L.lower (L.lower t) ∈ admonitionNames.map (·.2) := by
  obtain ⟨p, hp, rfl⟩ := List.mem_map.mp h
  obtain ⟨h1, h2⟩ := hL.lowerStyles p hp
  rw [h1, h2]
  exact ⟨List.mem_map_of_mem hp, List.mem_map_of_mem hp⟩

include hL hW in
theorem admonitionParagraph_sat {a : Attrs} {l : List El} (ha : AttrsOk R images a) (hl : ElsOk R images l)
    (hh : hasOption a "hardbreaks" = true → R.oneLine = true)
    (hi : images = true → (∃ t ∈ admonitionStyles, getStr a "style" = some t) ∧ IconCaption a) :
    Sat R images (Markup R) (admonitionParagraph L re a l) := by
  unfold admonitionParagraph
  split
  · exact Sat.error
  · rename_i kind e
    have hk := lower_safe hL (getStr_safe ha (by decide) e)
    have hicon : Sat R images (Markup R) (renderIcon L (L.lower kind) a true) := by
      refine renderIcon_sat hL ha hk (fun h => nomatch h) (fun h => nomatch h) fun _ him => ⟨(hi him).2, ?_⟩
      obtain ⟨t, ht, he⟩ := (hi him).1
      rw [e] at he
      cases he
      exact (lower_style hL ht).1
    refine hicon.bind fun icon hicon => (paragraphElements_sat hL hW hl hh).bind fun content hc =>
      (elementRoles_sat hW ha).bind fun roles hr => (elementTitle_sat hW ha).bind fun title ht => ?_
    have h1 := elementID_value ha
    have h2 := hk.2
    clear hh hi
    exact exec_sat hL admonitionParagraph_ok (by fits) holds_nil

theorem roles_none {a : Attrs} (h : AMap.get a "roles" = none) : Sat R images (fun t => t = []) (elementRoles re a) := by
  unfold elementRoles rolesOf
  rw [h]
  exact (Sat.pure (P := fun x => x = []) rfl).bind fun x hx => Sat.pure (by subst hx; rfl)

include hL hW in
theorem literal_sat {a : Attrs} (ha : AttrsOk R images a) (hr : AMap.get a "roles" = none) {content : Text} (hc : Markup R content) :
    Sat R images (Markup R) (do
      let roles ← elementRoles re a
      let title ← elementTitle re a
      exec L (·.literalBlock) (blockEnv a title roles content)) := by
  refine (roles_none hr).bind fun roles hroles => (elementTitle_sat hW ha).bind fun title ht => ?_
  subst hroles
  have h1 := elementID_value ha
  have h2 := (Safe.nil (R := R)).2
  refine exec_sat hL literalBlock_ok (by fits) ?_
  intro p hp
  rw [List.mem_singleton] at hp
  subst hp
  show (AMap.get (blockEnv a title [] content) "Roles").map Val.truth = some false
  simp [blockEnv, AMap.get_cons, Val.truth]

include hL hW in
theorem literalParagraph_sat {a : Attrs} {l : List El} (ha : AttrsOk R images a) (hl : ElsOk R images l)
    (hr : AMap.get a "roles" = none) : Sat R images (Markup R) (literalParagraph L re a l) := by
  unfold literalParagraph
  refine (renderEls_sat hW hl).bind fun content hc => literal_sat hL hW ha hr ?_
  split
  · exact markup_adjustHeadingSpaces hc
  · exact hc

include hW in
theorem passthroughParagraph_sat {l : List El} (hl : ElsOk R images l) : Sat R images (Markup R) (passthroughParagraph re l) :=
  (passthroughContent_sat hW hl.1 hl.2).bind fun _ ht => Sat.pure (ht.append nl_markup)

include hL hW in
theorem renderParagraph_sat {a : Attrs} {l : List El} (ha : AttrsOk R images a) (hl : ElsOk R images l)
    (hh : hasOption a "hardbreaks" = true → R.oneLine = true)
    (hv : getStr a "style" = some "verse".toList → ∀ e ∈ l, TextClean e)
    (hlit : getStr a "style" = some "literal".toList ∨ getStr a "style" = some "literal_paragraph".toList → AMap.get a "roles" = none)
    (hi : images = true → (∃ t ∈ admonitionStyles, getStr a "style" = some t) → IconCaption a) :
    Sat R images (Markup R) (renderParagraph L re pl a l) := by
  unfold renderParagraph
  refine Sat.get.bind fun c hc => Sat.ite (fun _ => embeddedParagraph_sat hL hW ha hl) fun _ => ?_
  refine Sat.ite (fun _ => exampleParagraph_sat hL hW ha hl) fun _ => ?_
  refine Sat.ite (fun _ => listingParagraph_sat hL hW ha hl) fun _ => ?_
  refine Sat.ite (fun _ => sourceBlock_sat hL hW ha hl) fun _ => ?_
  refine Sat.ite (fun h => verseParagraph_sat hL hW ha (hv h)) fun _ => ?_
  refine Sat.ite (fun _ => quoteParagraph_sat hL hW ha hl hh) fun _ => ?_
  refine Sat.ite (fun _ => passthroughParagraph_sat hW hl) fun _ => ?_
  refine Sat.ite (fun _ => manpageNameParagraph_sat hL hW hl) fun _ => ?_
  refine Sat.ite (fun h => admonitionParagraph_sat hL hW ha hl hh fun him => ?_) fun _ => ?_
  · have : ∃ t ∈ admonitionStyles, getStr a "style" = some t := by
      rcases h with h | h | h | h | h
      · exact ⟨_, by decide, h⟩
      · exact ⟨_, by decide, h⟩
      · exact ⟨_, by decide, h⟩
      · exact ⟨_, by decide, h⟩
      · exact ⟨_, by decide, h⟩
    exact ⟨this, hi him this⟩
  · exact Sat.ite (fun h => literalParagraph_sat hL hW ha hl (hlit h.symm)) fun _ => regularParagraph_sat hL hW ha hl hh

/-! ### Blocks -/

include hL hW in
theorem admonitionBlock_sat {a : Attrs} {l : List El} (ha : AttrsOk R images a) (hl : ElsOk R images l)
    (hi : images = true → (∃ t ∈ admonitionStyles, getStr a "style" = some t) ∧ IconCaption a) :
    Sat R images (Markup R) (admonitionBlock L re a l) := by
  unfold admonitionBlock
  have hk : Safe R (L.lower ((getStr a "style").getD [])) := by
    refine lower_safe hL ?_
    cases e : getStr a "style" with
    | none => exact Safe.nil
    | some t => exact getStr_safe ha (by decide) e
  have hicon : Sat R images (Markup R) (renderIcon L (L.lower (L.lower ((getStr a "style").getD []))) a true) := by
    refine renderIcon_sat hL ha (lower_safe hL hk) (fun h => nomatch h) (fun h => nomatch h) fun _ him => ⟨(hi him).2, ?_⟩
    obtain ⟨t, ht, he⟩ := (hi him).1
    rw [he]
    exact (lower_style hL ht).2
  refine hicon.bind fun icon hicon => (renderEls_sat hW hl).bind fun content hc =>
    (elementRoles_sat hW ha).bind fun roles hr => (elementTitle_sat hW ha).bind fun title ht => ?_
  have h1 := elementID_value ha
  have h2 := hk.2
  clear hi
  exact exec_sat hL admonitionBlock_ok (by fits) holds_nil

include hL hW in
theorem exampleBlock_sat {a : Attrs} {l : List El} (ha : AttrsOk R images a) (hl : ElsOk R images l) :
    Sat R images (Markup R) (exampleBlock L re a l) := by
  unfold exampleBlock
  refine (renderEls_sat hW hl).bind fun content hc => (elementRoles_sat hW ha).bind fun roles hr =>
    (caption_sat ha).bind fun cap hcap => (elementTitle_sat hW ha).bind fun title ht => ?_
  have h1 := elementID_value ha
  exact exec_sat hL exampleBlock_ok (by fits) holds_nil

include hL hW in
theorem fencedBlock_sat {a : Attrs} {l : List El} (ha : AttrsOk R images a) (hl : ElsOk R images l) :
    Sat R images (Markup R) (fencedBlock L re a l) := by
  unfold fencedBlock
  refine inBlock_sat ((renderEls_sat hW hl).bind fun content hc => (elementRoles_sat hW ha).bind fun roles hr =>
    (elementTitle_sat hW ha).bind fun title ht => ?_)
  have h1 := elementID_value ha
  have h2 := markup_trimNL hc
  exact exec_sat hL fencedBlock_ok (by fits) holds_nil

include hL hW in
theorem literalBlock_sat {a : Attrs} {l : List El} (ha : AttrsOk R images a) (hl : ElsOk R images l)
    (hr : AMap.get a "roles" = none) : Sat R images (Markup R) (literalBlock L re a l) :=
  (renderEls_sat hW hl).bind fun _ hc => literal_sat hL hW ha hr (markup_trimNL hc)

include hL hW in
theorem listingBlock_sat {a : Attrs} {l : List El} (ha : AttrsOk R images a) (hl : ElsOk R images l) :
    Sat R images (Markup R) (listingBlock L re a l) := by
  unfold listingBlock
  refine Sat.ite (fun _ => sourceBlock_sat hL hW ha hl) fun _ => inBlock_sat ((renderEls_sat hW hl).bind fun content hc =>
    (elementRoles_sat hW ha).bind fun roles hr => (elementTitle_sat hW ha).bind fun title ht => ?_)
  have h1 := elementID_value ha
  have h2 := markup_trimNL hc
  exact exec_sat hL listingBlock_ok (by fits) holds_nil

theorem attribution_second {a : Attrs} (h : AMap.get a "quoteAuthor" = none ∨ AMap.get a "quoteTitle" = none) :
    (attribution a).2 = [] := by
  unfold attribution
  split
  · rename_i t e
    rcases h with h | h
    · rw [getStr_some e] at h; cases h
    · have : getStr a "quoteTitle" = none := by unfold getStr; rw [h]
      rw [this]; rfl
  · rfl

include hL hW in
theorem markdownQuoteBlock_sat {a : Attrs} {l : List El} (ha : AttrsOk R images a) (hl : ElsOk R images l)
    (hx : R.xml = true → AMap.get a "quoteAuthor" = none ∨ AMap.get a "quoteTitle" = none) :
    Sat R images (Markup R) (markdownQuoteBlock L re a l) := by
  unfold markdownQuoteBlock
  refine (renderEls_sat hW hl).bind fun content hc => (elementRoles_sat hW ha).bind fun roles hr =>
    (elementTitle_sat hW ha).bind fun title ht => ?_
  have h1 := elementID_value ha
  have h2 := markup_trimNL hc
  obtain ⟨h3, h4⟩ := attribution_markup ha
  refine exec_sat' hL (markdownQuoteBlock_ok R) (by clear hx; fits) ?_
  intro p hp
  split at hp
  · rename_i h
    rw [List.mem_singleton] at hp
    subst hp
    show (AMap.get (quoteEnv a title roles (trim (· == '\n') content)) "Attribution.Second").map Val.truth = some false
    simp [quoteEnv, AMap.get_cons, Val.truth, attribution_second (hx h)]
  · cases hp

include hL hW in
theorem passthroughBlock_sat {a : Attrs} {l : List El} (ha : AttrsOk R images a) (hl : ElsOk R images l) :
    Sat R images (Markup R) (passthroughBlock L re a l) := by
  unfold passthroughBlock
  refine inBlock_sat ((renderEls_sat hW hl).bind fun content hc => (elementRoles_sat hW ha).bind fun roles hr => ?_)
  have h2 := markup_trimNL hc
  exact exec_sat hL passthroughBlock_ok (by fits) holds_nil

include hL hW in
theorem quoteBlock_sat {a : Attrs} {l : List El} (ha : AttrsOk R images a) (hl : ElsOk R images l) :
    Sat R images (Markup R) (quoteBlock L re a l) := by
  unfold quoteBlock
  refine (renderEls_sat hW hl).bind fun content hc => (elementRoles_sat hW ha).bind fun roles hr =>
    (elementTitle_sat hW ha).bind fun title ht => ?_
  have h1 := elementID_value ha
  obtain ⟨h3, h4⟩ := attribution_markup ha
  exact exec_sat hL quoteBlock_ok (by fits) holds_nil

include hL hW in
theorem verseBlock_sat {a : Attrs} {l : List El} (ha : AttrsOk R images a) (hl : ElsOk R images l) :
    Sat R images (Markup R) (verseBlock L re a l) := by
  unfold verseBlock
  refine (elementRoles_sat hW ha).bind fun roles hr => inBlock_sat ((renderEls_sat hW hl).bind fun content hc =>
    (elementTitle_sat hW ha).bind fun title ht => ?_)
  have h1 := elementID_value ha
  have h2 := markup_trimNL hc
  obtain ⟨h3, h4⟩ := attribution_markup ha
  exact exec_sat hL verseBlock_ok (by fits) holds_nil

include hL hW in
theorem sidebarBlock_sat {a : Attrs} {l : List El} (ha : AttrsOk R images a) (hl : ElsOk R images l) :
    Sat R images (Markup R) (sidebarBlock L re a l) := by
  unfold sidebarBlock
  refine (renderEls_sat hW hl).bind fun content hc => (elementRoles_sat hW ha).bind fun roles hr =>
    (elementTitle_sat hW ha).bind fun title ht => ?_
  have h1 := elementID_value ha
  exact exec_sat hL sidebarBlock_ok (by fits) holds_nil

include hL hW in
theorem openBlock_sat {a : Attrs} {l : List El} (ha : AttrsOk R images a) (hl : ElsOk R images l) :
    Sat R images (Markup R) (openBlock L re a l) := by
  unfold openBlock
  refine (renderEls_sat hW hl).bind fun content hc => (elementRoles_sat hW ha).bind fun roles hr =>
    (elementTitle_sat hW ha).bind fun title ht => ?_
  have h1 := elementID_value ha
  exact exec_sat hL openBlock_ok (by fits) holds_nil

include hL hW in
theorem renderBlock_sat {k : BlockKind} {a : Attrs} {l : List El} (ha : AttrsOk R images a) (hl : ElsOk R images l)
    (hlit : k = .literal → AMap.get a "roles" = none)
    (hmd : k = .markdownQuote → R.xml = true → AMap.get a "quoteAuthor" = none ∨ AMap.get a "quoteTitle" = none)
    (hex : k = .«example» → images = true → has a "style" = true →
      (∃ t ∈ admonitionStyles, getStr a "style" = some t) ∧ IconCaption a) :
    Sat R images (Markup R) (renderBlock L re k a l) := by
  cases k with
  | «example» =>
    exact Sat.ite (fun h => admonitionBlock_sat hL hW ha hl fun him => hex rfl him h) fun _ => exampleBlock_sat hL hW ha hl
  | fenced => exact fencedBlock_sat hL hW ha hl
  | literal => exact literalBlock_sat hL hW ha hl (hlit rfl)
  | listing => exact listingBlock_sat hL hW ha hl
  | markdownQuote => exact markdownQuoteBlock_sat hL hW ha hl (hmd rfl)
  | pass => exact passthroughBlock_sat hL hW ha hl
  | quote => exact quoteBlock_sat hL hW ha hl
  | verse => exact verseBlock_sat hL hW ha hl
  | sidebar => exact sidebarBlock_sat hL hW ha hl
  | «open» => exact openBlock_sat hL hW ha hl
  | other => exact Sat.error

end
end Verif.Rend
