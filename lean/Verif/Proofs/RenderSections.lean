import Verif.Proofs.RenderTables
/-!
The renderer writes well-formed fragments: sections, tables of contents, and all the elements.
-/
namespace Verif.Rend
open Verif.Html Verif.Tmpl

section
variable {R : Rules} {images : Bool} {L : Lib} {re : El → M Text} {pl : Bool → El → Except Err Text}
  (hL : LibOk R L) (hW : Within R images re pl)

/-! ### Sections -/

theorem int_chars (n : Int) : ∀ c ∈ (toString n).toList, c.isDigit = true ∨ c = '-' := by
  have hd : ∀ m : Nat, ∀ c ∈ (toString m).toList, c.isDigit = true := by
    intro m c hc
    have hc : c ∈ itoa m := by
      simpa [itoa, Nat.toList_repr] using hc
    exact C28.itoa_digit m c hc
  intro c hc
  cases n with
  | ofNat m => exact Or.inl (hd m c hc)
  | negSucc m =>
    have hc : c ∈ ("-" ++ toString (m + 1)).toList := hc
    rw [String.toList_append] at hc
    rcases List.mem_append.mp hc with hc | hc
    · exact Or.inr (by simpa using hc)
    · exact Or.inl (hd _ c hc)

theorem headingName (n : Int) : Name ("h".toList ++ (toString n).toList) := by
  refine ⟨'h', (toString n).toList, rfl, by decide, fun c hc => ?_⟩
  rcases int_chars n c hc with h | h
  · refine Or.inr (Or.inl ?_)
    simp only [Char.isDigit, Bool.and_eq_true, decide_eq_true_eq] at h
    exact ⟨h.1, h.2⟩
  · exact Or.inr (Or.inr (Or.inl h))

theorem heading_not_void (n : Int) : ¬ Void R ("h".toList ++ (toString n).toList) := by
  intro ⟨_, h⟩
  have key : ∀ x ∈ voidNames, x.head? = some 'h' → 'r' ∈ x.tail := by decide
  have := int_chars n 'r' (key _ h rfl)
  exact absurd this (by decide)

include hL hW in
theorem sectionTitle_sat {level : Int} {a : Attrs} {title : List El} (ha : AttrsOk R images a)
    (ht : ∀ e ∈ title, Clean R images e) : Sat R images (Markup R) (sectionTitle L re level a title) := by
  unfold sectionTitle
  refine (renderInline_sat hW ht).bind fun content hc => Sat.get.bind fun c hinv => ?_
  have hn : Plain ((c.numbers.lookup ((getStr a "id").getD [])).getD []) := by
    cases h : c.numbers.lookup ((getStr a "id").getD []) with
    | none => exact fun _ h => nomatch h
    | some t => exact hinv.numbers _ (lookup_mem' h)
  have hid := hL.lower _ (elementID_value ha)
  have hcont : Markup R (trim goSpace content) := markup_trim noTag_space hc
  generalize (c.numbers.lookup ((getStr a "id").getD [])).getD [] = number at hn
  generalize trim goSpace content = body at hcont
  intro c1 t c2 hc1 e
  unfold exec at e
  rw [hL.tmpl] at e
  have e1 : (templatesOf R).sectionTitle = Html5.sectionTitleTmpl := by
    unfold templatesOf; split <;> rfl
  have e2 : Tm.render L.lower Html5.sectionTitleTmpl [("Level", .num level), ("LevelPlusOne", .num (level + 1)),
      ("ID", .str (elementID a)), ("Number", .str number), ("Content", .str body)] =
      some ("<h".toList ++ ((toString (level + 1)).toList ++ (" id=\"".toList ++ (L.lower (elementID a) ++ ("\">".toList ++
        ((if number.isEmpty then [] else number ++ ". ".toList) ++ (body ++ ("</h".toList ++ ((toString (level + 1)).toList ++ ">\n".toList))))))))) := by
    cases number <;> simp [Html5.sectionTitleTmpl, Tm.render, AMap.get_cons, Val.shown, Fn.call, Tmpl.Cond.eval, Val.truth]
  dsimp only at e
  rw [e1, e2] at e
  cases e
  refine ⟨?_, hc1⟩
  have hnum : Markup R (if number.isEmpty then [] else number ++ ". ".toList) := by
    split
    · exact .empty
    · exact (Plain.append hn (plain_lit (by decide))).markup
  have hat : Html.Attrs R (" ".toList ++ "id".toList ++ ('=' :: '"' :: L.lower (elementID a) ++ ['"']) ++ []) :=
    .value (by decide) (fun c hc => Or.inl (by simpa using hc)) ⟨'i', ['d'], rfl, by decide, by decide⟩ hid (.done (fun _ h => nomatch h))
  have := Markup.element (headingName (level + 1)) (heading_not_void (R := R) (level + 1)) hat (hnum.append hcont) (nl_markup (R := R))
  simpa using this

include hL hW in
theorem renderSection_sat {level : Int} {a : Attrs} {title l : List El} (ha : AttrsOk R images a)
    (ht : ∀ e ∈ title, Clean R images e) (hl : ∀ e ∈ l, Clean R images e) :
    Sat R images (Markup R) (renderSection L re level a title l) := by
  unfold renderSection
  refine (sectionTitle_sat hL hW ha ht).bind fun t h1 => (renderAll_sat hW hl).bind fun content h2 =>
    (elementRoles_sat hW ha).bind fun roles h3 => ?_
  clear ht hl
  exact exec_sat hL sectionContent_ok (by fits) holds_nil

/-! ### Tables of contents -/

include hL in
theorem tocEntryOf_sat {number id title content : Text} (h1 : Markup R number) (h2 : Value R id) (h3 : Markup R title) (h4 : Markup R content) :
    Sat R images (Markup R)
      (exec L (·.tocEntry) [("Number", .str number), ("ID", .str id), ("Title", .str title), ("Content", .str content)]) :=
  exec_sat hL tocEntry_ok (by fits) holds_nil

mutual
theorem tocEntry_sat (hL : LibOk R L) : ∀ {e : Toc}, TocOk R e → Sat R images (Markup R) (tocEntry L e)
  | .entry id level title number children, h => by
    have h : Value R id ∧ Markup R title ∧ Markup R number ∧ ∀ e ∈ children, TocOk R e := by
      cases h with | entry h1 h2 h3 h4 => exact ⟨h1, h2, h3, h4⟩
    rw [tocEntry]
    refine (tocSections_sat hL (l := children) h.2.2.2).bind fun content hc => ?_
    exact tocEntryOf_sat hL h.2.2.1 h.1 h.2.1 hc
theorem tocEntries_sat (hL : LibOk R L) : ∀ {l : List Toc}, (∀ e ∈ l, TocOk R e) → Sat R images (Markup R) (tocEntries L l)
  | [], _ => by rw [tocEntries]; exact Sat.pure .empty
  | e :: l, h => by
    rw [tocEntries]
    refine (tocEntry_sat hL (h e (List.mem_cons_self ..))).bind fun t ht => ?_
    exact (tocEntries_sat hL (l := l) fun x hx => h x (List.mem_cons_of_mem _ hx)).bind fun u hu => Sat.pure (ht.append hu)
theorem tocSections_sat (hL : LibOk R L) : ∀ {l : List Toc}, (∀ e ∈ l, TocOk R e) → Sat R images (Markup R) (tocSections L l)
  | [], _ => by rw [tocSections]; exact Sat.pure .empty
  | .entry id level title number children :: l, h => by
    have h0 : Value R id ∧ Markup R title ∧ Markup R number ∧ ∀ e ∈ children, TocOk R e := by
      cases h _ (List.mem_cons_self ..) with | entry h1 h2 h3 h4 => exact ⟨h1, h2, h3, h4⟩
    rw [tocSections]
    refine (tocSections_sat hL (l := children) h0.2.2.2).bind fun content hc => ?_
    refine (tocEntryOf_sat hL h0.2.2.1 h0.1 h0.2.1 hc).bind fun t ht => ?_
    refine (tocEntries_sat hL (l := l) fun x hx => h x (List.mem_cons_of_mem _ hx)).bind fun u hu => ?_
    have := ht.append hu
    clear h h0
    exact exec_sat hL tocSection_ok (by fits) holds_nil
end

theorem docV_title {k : String} {l : List El} (h : DocV R images k (.els l)) (hk : k = "toc-title") : ∀ e ∈ l, Clean R images e := by
  cases h with
  | value h => exact (h.printed (hk ▸ printed_mem (by decide))).elim
  | tocTitle h => exact h

theorem docV_title_str {k : String} {t : Text} (h : DocV R images k (.str t)) (hk : k = "toc-title") : Plain t := by
  cases h with
  | value h => exact (h.printed (hk ▸ printed_mem (by decide))).1
  | tocTitleText h => exact h

include hW in
theorem tocTitle_sat : Sat R images (Markup R) (tocTitle re) := by
  refine docAttrs_sat.bind fun doc hd => ?_
  unfold tocTitleOf
  split
  · exact Sat.pure (plain_lit (by decide)).markup
  · rename_i t e; exact Sat.pure (docV_title_str (hd _ _ e) rfl).markup
  · rename_i l e; exact renderAll_sat hW (docV_title (hd _ _ e) rfl)
  · exact Sat.error

include hL hW in
theorem renderToc_sat {s : Option (List Toc)} (h : ∀ l, s = some l → ∀ e ∈ l, TocOk R e) : Sat R images (Markup R) (renderToc L re s) := by
  cases s with
  | none => exact Sat.pure .empty
  | some l =>
    refine (tocTitle_sat hW).bind fun title ht => (tocSections_sat hL (h l rfl)).bind fun secs hs => ?_
    refine Sat.ite (fun _ => Sat.pure .empty) fun _ => ?_
    clear h
    exact exec_sat hL tocRoot_ok (by fits) holds_nil

include hL hW in
theorem renderPreamble_sat {l : List El} {s : Option (List Toc)} (hl : ∀ e ∈ l, Clean R images e)
    (h : ∀ l, s = some l → ∀ e ∈ l, TocOk R e) : Sat R images (Markup R) (renderPreamble L re l s) := by
  refine (renderAll_sat hW hl).bind fun content hc => (renderToc_sat hL hW h).bind fun t ht => Sat.get.bind fun c _ => ?_
  clear h hl
  exact exec_sat hL preamble_ok (by fits) holds_nil

/-! ### User macros and declarations -/

include hL hW in
theorem renderUserMacro_sat {block : Bool} {name : String} {value raw : Text} {a : Attrs} (hr : Plain raw) :
    Sat R images (Markup R) (renderUserMacro L re pl block name value a raw) := by
  unfold renderUserMacro
  split
  · refine Sat.ite (fun _ => ?_) fun _ => Sat.pure hr.markup
    refine renderParagraph_sat hL hW (fun k v h => by cases h) ⟨?_, ?_⟩ (fun h => by cases h) (fun h => by cases h) (fun h => rfl) (fun _ h => ?_)
    · intro e he hs
      rw [List.mem_singleton] at he
      subst he; cases hs
    · refine fun t => filled_all fun u hu => ?_
      rw [List.mem_singleton] at hu
      cases hu; exact hr
    · obtain ⟨t, _, h⟩ := h; cases h
  · rename_i f hf
    split
    · rename_i t ht; exact Sat.pure (hL.userMacro _ _ hf _ _ _ _ _ ht)
    · exact Sat.error

theorem DocOk.set {a : Attrs} (ha : DocOk R images a) {k : String} {v : AV} (h : DocV R images k v) : DocOk R images (a.set k v) := by
  intro k' v' hg
  have hg : AMap.get (AMap.set a k v) k' = some v' := hg
  rw [AMap.get_set] at hg
  split at hg
  · rename_i e; cases hg; subst e; exact h
  · exact ha k' v' hg

theorem DocOk.del {a : Attrs} (ha : DocOk R images a) {k : String} : DocOk R images (a.del k) := by
  intro k' v' hg
  have hg : AMap.get (AMap.del a k) k' = some v' := hg
  rw [AMap.get_del] at hg
  split at hg
  · cases hg
  · exact ha k' v' hg

theorem DocOk.setAll : ∀ {b a : Attrs}, DocOk R images a → (∀ p ∈ b, DocV R images p.1 p.2) → DocOk R images (a.setAll b)
  | [], _, ha, _ => ha
  | p :: b, a, ha, h => by
    show DocOk R images (AMap.setAll (AMap.set a p.1 p.2) b)
    exact DocOk.setAll (ha.set (h p (List.mem_cons_self ..))) fun q hq => h q (List.mem_cons_of_mem _ hq)

/-- Changes the attributes of the document only. -/
theorem declare_sat {f : Attrs → Attrs} (h : ∀ a, DocOk R images a → DocOk R images (f a)) :
    Sat R images (Markup R) (do M.modify fun c => { c with attrs := f c.attrs }; return []) := by
  refine Sat.bind (P := fun _ => True) (Sat.modify ?_) fun _ _ => Sat.pure .empty
  exact fun c hc => ⟨h _ hc.attrs, hc.refs, hc.numbers, hc.prefixes⟩

include hL hW in
/-- Every element whose parts are as required is rendered as a well-formed fragment. -/
theorem dispatch_sat {e : El} (h : Clean R images e) : Sat R images (Markup R) (dispatch L re pl e) := by
  cases h with
  | str h =>
    refine renderStr_sat.mono fun u hu => ?_
    obtain ⟨b, rfl⟩ := hu
    exact markup_iff.mpr (scan_renderString (markup_iff.mp h.markup))
  | special => exact renderSpecial_sat.mono fun _ h => h.1.markup
  | symbol => exact renderSymbol_sat.mono fun _ h => h.1.markup
  | predefined h h' => exact Sat.pure (predefined_plain h h').markup
  | quoted ha hl => exact renderQuoted_sat hL hW ha hl
  | passthrough hl hb => exact renderPassthrough_sat hW hl hb
  | link ha hl => exact renderLink_sat hL hW ha hl
  | xref h1 h2 => exact renderXref_sat hL hW h1 h2
  | extXref ha hl => exact renderExtXref_sat hL hW ha hl
  | footnoteRef h => exact renderFootnoteRef_sat hL h
  | inlineImage ha hl hp h1 h2 => exact renderInlineImage_sat hL hW ha hl hp h1 h2
  | imageBlock ha hl hp => exact renderImageBlock_sat hL hW ha hl hp
  | icon ha hc ht hr hi => exact renderInlineIcon_sat hL ha hc ht hr hi
  | button h ht => exact renderButton_sat hL h ht
  | menu h ht => exact Sat.pure (renderMenu_markup h ht)
  | lineBreak => exact exec_sat hL lineBreak_ok (by fits) holds_nil
  | thematicBreak => exact exec_sat hL thematicBreak_ok (by fits) holds_nil
  | indexTerm h => exact renderInline_sat hW h
  | concealed => exact Sat.pure .empty
  | callout => exact renderCallout_sat hL
  | userMacro h => exact renderUserMacro_sat hL hW h
  | paragraph ha hl hb hh hv hlit hi => exact renderParagraph_sat hL hW ha ⟨hl, hb⟩ hh hv hlit hi
  | block ha hl hb hlit hmd hex => exact renderBlock_sat hL hW ha ⟨hl, hb⟩ hlit hmd hex
  | list ha h h' hs hx hl => exact renderList_sat hL hW ha h h' hs hx hl
  | table ha hh hr hf => exact renderTable_sat hL hW ha hh hr hf
  | sect ha ht hl => exact renderSection_sat hL hW ha ht hl
  | preamble hl hs => exact renderPreamble_sat hL hW hl hs
  | toc hs => exact renderToc_sat hL hW hs
  | attrDecl h => exact declare_sat (f := fun a => a.set _ _) fun _ ha => DocOk.set ha h
  | attrReset => exact declare_sat (f := fun a => a.del _) fun _ ha => DocOk.del ha
  | frontMatter h => exact declare_sat (f := fun a => a.setAll _) fun _ ha => DocOk.setAll ha h
  | blankLine => exact Sat.error
  | docHeader => exact Sat.error

end
end Verif.Rend
