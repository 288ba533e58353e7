import Verif.Proofs.RenderElement
/-!
The renderer writes well-formed output: documents.
-/
namespace Verif.Rend
open Verif.Html Verif.Tmpl

/-! ### The attributes of the document -/

/-- The attributes of the document of which more than the characters matters. -/
def specialKeys : List String := ["icons", "imagesdir", "hardbreaks"] ++ admonitionCaptions

theorem docV_str {R images} {k : String} {t : Text} (ht : Safe R t) (hk : k ∉ specialKeys) : DocV R images k (.str t) := by
  have key : ∀ x ∈ specialKeys, k ≠ x := fun x hx e => hk (e ▸ hx)
  refine .value ⟨fun _ => ht, fun e => ?_, fun _ h => ?_, fun e => ?_, fun e => ?_, fun _ l h => (nomatch h), fun _ l h => (nomatch h), fun _ a b c h => (nomatch h)⟩
  · exact absurd e (key _ (by decide))
  · exact absurd (List.mem_append_right _ h) hk
  · exact absurd e (key _ (by decide))
  · exact absurd e (key _ (by decide))

section
variable {R : Rules} {images : Bool}

theorem defaultAttrs_ok {cfg : Config} (h : DocOk R images cfg.attrs) : DocOk R images (defaultAttrs cfg) := by
  unfold defaultAttrs
  refine DocOk.set (DocOk.set (DocOk.set (DocOk.set h ?_) ?_) ?_) ?_
  · exact docV_str (safe_lit (by decide)) (by decide)
  · exact docV_str (safe_lit (by decide)) (by decide)
  · exact docV_str (safe_lit (by decide)) (by decide)
  · exact docV_str (safe_lit (by decide)) (by decide)

/-- A declaration among clean elements. -/
theorem decl_ok {l : List El} (h : ∀ e ∈ l, Clean R images e) {name : String} {v : AV} (hm : .attrDecl name v ∈ l) :
    DocV R images name v := by
  cases h _ hm with | attrDecl h => exact h

/-! ### Authors and revision -/

theorem authorsOf_ok : ∀ {l : List El} {cur : Option (List Author)} {r : Option (List Author)}, (∀ e ∈ l, Clean R images e) →
    (∀ as, cur = some as → ∀ a ∈ as, AuthorOk R a) → authorsOf l cur = .ok r → ∀ as, r = some as → ∀ a ∈ as, AuthorOk R a
  | [], cur, r, _, hc, h => by cases h; exact hc
  | e :: l, cur, r, hl, hc, h => by
    have hl' := fun x hx => hl x (List.mem_cons_of_mem _ hx)
    by_cases hd : ∃ name v, e = .attrDecl name v
    · obtain ⟨name, v, rfl⟩ := hd
      have hv := decl_ok hl (List.mem_cons_self ..)
      unfold authorsOf at h
      split at h
      · rename_i e; subst e
        split at h
        · cases h
          intro as e; cases e
          exact (docV_value hv (by decide)).authors rfl _ rfl
        · exact authorsOf_ok hl' hc h
      split at h
      · rename_i e; subst e
        split at h
        · have hs : Safe R _ := (docV_value hv (by decide)).printed (printed_mem (by decide))
          split at h
          · refine authorsOf_ok hl' ?_ h
            intro as e; cases e
            intro a ha
            rw [List.mem_singleton] at ha; subst ha
            exact ⟨hs, fun n hn => nomatch hn⟩
          · rename_i a as
            refine authorsOf_ok hl' ?_ h
            intro as' e; cases e
            intro b hb
            rcases List.mem_cons.mp hb with rfl | hb
            · exact ⟨hs, (hc _ rfl a (List.mem_cons_self ..)).2⟩
            · exact hc _ rfl b (List.mem_cons_of_mem _ hb)
          · cases h
        · exact authorsOf_ok hl' hc h
      split at h
      · rename_i e; subst e
        split at h
        · have hs : Safe R _ := (docV_value hv (by decide)).printed (printed_mem (by decide))
          split at h
          · refine authorsOf_ok hl' ?_ h
            intro as e; cases e
            intro a ha
            rw [List.mem_singleton] at ha; subst ha
            exact ⟨Safe.nil, fun n hn => by cases hn; exact ⟨hs, Safe.nil, Safe.nil⟩⟩
          · rename_i n em as
            refine authorsOf_ok hl' ?_ h
            intro as' e; cases e
            intro b hb
            rcases List.mem_cons.mp hb with rfl | hb
            · have := hc _ rfl _ (List.mem_cons_self ..)
              exact ⟨this.1, fun m hm => by cases hm; exact ⟨hs, (this.2 n rfl).2⟩⟩
            · exact hc _ rfl b (List.mem_cons_of_mem _ hb)
          · cases h
        · exact authorsOf_ok hl' hc h
      · exact authorsOf_ok hl' hc h
    · have e1 : authorsOf (e :: l) cur = authorsOf l cur := by
        cases e <;> first | rfl | exact absurd ⟨_, _, rfl⟩ hd
      rw [e1] at h
      exact authorsOf_ok hl' hc h

theorem revisionOf_ok : ∀ {l : List El} {a b c : Text}, (∀ e ∈ l, Clean R images e) → revisionOf l = some (a, b, c) →
    Safe R a ∧ Safe R b ∧ Safe R c
  | [], _, _, _, _, h => nomatch h
  | e :: l, a, b, c, hl, h => by
    have hl' := fun x hx => hl x (List.mem_cons_of_mem _ hx)
    by_cases hd : ∃ name v, e = .attrDecl name v
    · obtain ⟨name, v, rfl⟩ := hd
      have hv := decl_ok hl (List.mem_cons_self ..)
      unfold revisionOf at h
      split at h
      · rename_i e; subst e
        split at h
        · cases h
          exact (docV_value hv (by decide)).revision rfl _ _ _ rfl
        · exact revisionOf_ok hl' h
      · exact revisionOf_ok hl' h
    · have e1 : revisionOf (e :: l) = revisionOf l := by
        cases e <;> first | rfl | exact absurd ⟨_, _, rfl⟩ hd
      rw [e1] at h
      exact revisionOf_ok hl' h

theorem fullName_safe {a : Author} (h : AuthorOk R a) {t : Text} (e : fullName a = .ok t) : Safe R t := by
  obtain ⟨n, em⟩ := a
  cases n with
  | none => cases e
  | some n =>
    cases e
    obtain ⟨h1, h2, h3⟩ := h.2 n rfl
    have hs : Safe R " ".toList := safe_lit (by decide)
    refine (h1.append ?_).append ?_
    · split
      · exact Safe.nil
      · exact hs.append h2
    · split
      · exact Safe.nil
      · exact hs.append h3

theorem authorKey_ne {k : String} (i : Nat) (hk : ∀ x ∈ specialKeys, k.toList.isPrefixOf x.toList = false) : authorKey k i ∉ specialKeys := by
  intro h
  have h1 := hk _ h
  have h2 : k.toList <+: (authorKey k i).toList := by
    unfold authorKey
    split
    · exact List.prefix_refl _
    · rw [String.toList_append, String.toList_append, List.append_assoc]
      exact List.prefix_append _ _
  rw [List.isPrefixOf_iff_prefix.mpr h2] at h1
  cases h1

theorem expandAuthors_ok : ∀ {l : List Author} {i : Nat} {r : Attrs}, (∀ a ∈ l, AuthorOk R a) → expandAuthors i l = .ok r →
    ∀ p ∈ r, DocV R images p.1 p.2
  | [], _, r, _, h => by cases h; exact fun _ h => nomatch h
  | a :: l, i, r, hl, h => by
    unfold expandAuthors at h
    cases h1 : fullName a with
    | error x => rw [h1] at h; cases h
    | ok full =>
      cases h2 : expandAuthors (i + 1) l with
      | error x => rw [h1, h2] at h; cases h
      | ok r' =>
        rw [h1, h2] at h
        cases h
        have ha := hl a (List.mem_cons_self ..)
        have hfull := fullName_safe ha h1
        have hr := expandAuthors_ok (fun x hx => hl x (List.mem_cons_of_mem _ hx)) h2
        have hn : Safe R (a.name.getD ⟨[], [], []⟩).first ∧ Safe R (a.name.getD ⟨[], [], []⟩).middle ∧ Safe R (a.name.getD ⟨[], [], []⟩).last := by
          cases hname : a.name with
          | none => exact ⟨Safe.nil, Safe.nil, Safe.nil⟩
          | some n => exact ha.2 n hname
        have str : ∀ {k : String} {t : Text}, Safe R t → (∀ x ∈ specialKeys, k.toList.isPrefixOf x.toList = false) →
            DocV R images (authorKey k i) (.str t) := fun ht hk => docV_str ht (authorKey_ne i hk)
        intro p hp
        rcases List.mem_append.mp hp with hp | hp
        · rcases List.mem_append.mp hp with hp | hp
          · rcases List.mem_append.mp hp with hp | hp
            · rcases List.mem_append.mp hp with hp | hp
              · rcases List.mem_cons.mp hp with rfl | hp
                · exact str hfull (by decide)
                · rw [List.mem_singleton] at hp; subst hp
                  exact str hn.1 (by decide)
              · split at hp
                · cases hp
                · rw [List.mem_singleton] at hp; subst hp
                  exact str hn.2.1 (by decide)
            · split at hp
              · cases hp
              · rw [List.mem_singleton] at hp; subst hp
                exact str hn.2.2 (by decide)
          · split at hp
            · cases hp
            · rw [List.mem_singleton] at hp; subst hp
              exact str ha.1 (by decide)
        · exact hr p hp

theorem not_printed_authors : ¬ Printed "authors" := by
  rintro (h | h | h | h)
  · exact absurd h (by decide)
  · exact absurd h (by decide)
  · exact absurd h (by decide)
  · exact absurd h (by decide)

theorem not_printed_revision : ¬ Printed "revision" := by
  rintro (h | h | h | h)
  · exact absurd h (by decide)
  · exact absurd h (by decide)
  · exact absurd h (by decide)
  · exact absurd h (by decide)

theorem addAuthors_ok {a r : Attrs} {as : Option (List Author)} (ha : DocOk R images a) (h : ∀ l, as = some l → ∀ x ∈ l, AuthorOk R x)
    (e : addAuthors a as = .ok r) : DocOk R images r := by
  cases as with
  | none => cases e; exact ha
  | some l =>
    unfold addAuthors at e
    dsimp only at e
    cases hx : expandAuthors 0 l with
    | ok x =>
      rw [hx] at e
      cases e
      refine DocOk.setAll (DocOk.set ha (.value ?_)) (expandAuthors_ok (h l rfl) hx)
      exact ⟨fun h => absurd h not_printed_authors, fun e => absurd e (by decide), fun _ e => absurd e (by decide),
        fun e => absurd e (by decide), fun e => absurd e (by decide), fun e => absurd e (by decide),
        fun _ l' e => by cases e; exact h l rfl, fun e => absurd e (by decide)⟩
    | error x => rw [hx] at e; cases e

theorem addRevision_ok {a : Attrs} {r : Option (Text × Text × Text)} (ha : DocOk R images a)
    (h : ∀ x y z, r = some (x, y, z) → Safe R x ∧ Safe R y ∧ Safe R z) : DocOk R images (addRevision a r) := by
  cases r with
  | none => exact ha
  | some p =>
    obtain ⟨x, y, z⟩ := p
    obtain ⟨hx, hy, hz⟩ := h x y z rfl
    refine DocOk.setAll ha ?_
    intro p hp
    rcases List.mem_append.mp hp with hp | hp
    · rcases List.mem_append.mp hp with hp | hp
      · rcases List.mem_append.mp hp with hp | hp
        · rw [List.mem_singleton] at hp; subst hp
          show DocV R images "revision" (.revision x y z)
          refine .value ⟨fun h => absurd h not_printed_revision, fun e => absurd e (by decide), fun _ e => absurd e (by decide),
            fun e => absurd e (by decide), fun e => absurd e (by decide), fun e => absurd e (by decide),
            fun e => absurd e (by decide), fun _ a b c e => by cases e; exact ⟨hx, hy, hz⟩⟩
        · split at hp
          · cases hp
          · rw [List.mem_singleton] at hp; subst hp
            exact docV_str (k := "revnumber") hx (by decide)
      · split at hp
        · cases hp
        · rw [List.mem_singleton] at hp; subst hp
          exact docV_str (k := "revdate") hy (by decide)
    · split at hp
      · cases hp
      · rw [List.mem_singleton] at hp; subst hp
        exact docV_str (k := "revremark") hz (by decide)

theorem header_mem : ∀ {l : List El} {a : Attrs} {t : Option (List El)} {els : List El}, header l = some (a, t, els) →
    .docHeader a t els ∈ l
  | [], _, _, _, h => nomatch h
  | e :: l, a, t, els, h => by
    cases e with
    | docHeader a' t' e' => cases h; exact List.mem_cons_self ..
    | blankLine => exact List.mem_cons_of_mem _ (header_mem (l := l) h)
    | frontMatter _ => exact List.mem_cons_of_mem _ (header_mem (l := l) h)
    | _ => cases h

/-- What is required of the header of a document. -/
def HeadOk (R : Rules) (images : Bool) (h : Option (Attrs × Option (List El) × List El)) : Prop :=
  ∀ a t els, h = some (a, t, els) → AttrsOk R images a ∧ (∀ x, t = some x → ∀ e ∈ x, Clean R images e) ∧
    (∀ x, t = some x → ∀ e ∈ x, TextClean e) ∧ ∀ e ∈ els, Clean R images e

theorem header_ok {l : List El} (h : ∀ e ∈ l, Clean R images e) : HeadOk R images (header l) := by
  intro a t els e
  cases h _ (header_mem e) with
  | docHeader h1 h2 h3 h4 => exact ⟨h1, h2, h3, h4⟩

theorem addHeader_ok {a r : Attrs} {h : Option (Attrs × Option (List El) × List El)} (ha : DocOk R images a) (hh : HeadOk R images h)
    (e : addHeader a h = .ok r) : DocOk R images r := by
  cases h with
  | none => cases e; exact ha
  | some p =>
    obtain ⟨b, t, els⟩ := p
    obtain ⟨_, _, _, hels⟩ := hh _ _ _ rfl
    unfold addHeader at e
    dsimp only at e
    split at e
    · cases e
    · rename_i as has
      split at e
      · cases e
      · rename_i x hx
        cases e
        refine addRevision_ok (addAuthors_ok ha (authorsOf_ok hels (fun _ e => by cases e) has) hx) ?_
        exact fun x y z e => revisionOf_ok hels e

/-! ### The context -/

theorem headerDecls_ok : ∀ {l : List El} {a : Attrs}, (∀ e ∈ l, Clean R images e) → DocOk R images a → DocOk R images (headerDecls l a)
  | [], _, _, ha => ha
  | e :: l, a, hl, ha => by
    have hl' := fun x hx => hl x (List.mem_cons_of_mem _ hx)
    have hd : ∀ name v, e = .attrDecl name v → DocV R images name v := fun name v h => decl_ok hl (h ▸ List.mem_cons_self ..)
    unfold headerDecls
    split
    · rename_i h; cases h
    · rename_i h; cases h; exact headerDecls_ok hl' (DocOk.set ha (hd _ _ rfl))
    · rename_i h; cases h; exact headerDecls_ok hl' (DocOk.del ha)
    · rename_i h; cases h; exact headerDecls_ok hl' ha

theorem leadingDecls_ok : ∀ {l : List El} {a : Attrs}, (∀ e ∈ l, Clean R images e) → DocOk R images a → DocOk R images (leadingDecls l a)
  | [], _, _, ha => ha
  | e :: l, a, hl, ha => by
    have hl' := fun x hx => hl x (List.mem_cons_of_mem _ hx)
    have hd : ∀ name v, e = .attrDecl name v → DocV R images name v := fun name v h => decl_ok hl (h ▸ List.mem_cons_self ..)
    unfold leadingDecls
    split
    · rename_i h; cases h; exact leadingDecls_ok hl' (DocOk.set ha (hd _ _ rfl))
    · rename_i h; cases h; exact leadingDecls_ok hl' (DocOk.del ha)
    · exact ha

mutual
theorem numberEl_plain : ∀ (e : El) (en : Bool) (n : Nat) (pre : Text), Plain pre → ∀ p ∈ (numberEl e en n pre).2.2, Plain p.2
  | .sect level attrs title els, en, n, pre, hp => by
    have hn : Plain (pre ++ itoa (n + 1)) := Plain.append hp (itoa_safe (R := Html.html) _).1
    have hd : Plain ".".toList := plain_lit (by decide)
    unfold numberEl
    split
    · intro p h
      rcases List.mem_append.mp h with h | h
      · exact numberEls_plain els _ _ _ (Plain.append hn hd) p h
      · rw [List.mem_singleton] at h; subst h; exact hn
    · intro p h
      exact numberEls_plain els _ _ _ hd p h
  | .attrDecl _ _, _, _, _, _ => by unfold numberEl; exact fun _ h => nomatch h
  | .attrReset _, _, _, _, _ => by unfold numberEl; exact fun _ h => nomatch h
  | .str _, _, _, _, _ | .special _, _, _, _, _ | .symbol _, _, _, _, _ | .predefined _, _, _, _, _ | .quoted _ _ _, _, _, _, _
  | .passthrough _ _, _, _, _, _ | .link _ _, _, _, _, _ | .xref _ _, _, _, _, _ | .extXref _ _, _, _, _, _
  | .footnoteRef _ _ _, _, _, _, _ | .inlineImage _ _, _, _, _, _ | .imageBlock _ _, _, _, _, _ | .icon _ _, _, _, _, _
  | .button _, _, _, _, _ | .menu _, _, _, _, _ | .lineBreak, _, _, _, _ | .thematicBreak, _, _, _, _ | .indexTerm _, _, _, _, _
  | .concealed, _, _, _, _ | .callout _, _, _, _, _ | .userMacro _ _ _ _ _, _, _, _, _ | .paragraph _ _, _, _, _, _
  | .block _ _ _, _, _, _, _ | .list _ _ _, _, _, _, _ | .table _ _ _ _, _, _, _, _ | .preamble _ _, _, _, _, _ | .toc _, _, _, _, _
  | .frontMatter _, _, _, _, _ | .blankLine, _, _, _, _ | .docHeader _ _ _, _, _, _, _ | .other, _, _, _, _ => by
    unfold numberEl; exact fun _ h => nomatch h
theorem numberEls_plain : ∀ (l : List El) (en : Bool) (n : Nat) (pre : Text), Plain pre → ∀ p ∈ (numberEls l en n pre).2, Plain p.2
  | [], _, _, _, _ => by unfold numberEls; exact fun _ h => nomatch h
  | e :: l, en, n, pre, hp => by
    unfold numberEls
    intro p h
    rcases List.mem_append.mp h with h | h
    · exact numberEls_plain l _ _ _ hp p h
    · exact numberEl_plain e _ _ _ hp p h
end

theorem startContext_inv {d : Doc} {cfg : Config} (hd : CleanDoc R images d cfg) {c : Ctx} (h : newContext d cfg = .ok c) :
    Inv R images (startContext d c) := by
  unfold newContext at h
  split at h
  · cases h
  · rename_i a ha
    cases h
    have h1 : DocOk R images a := addHeader_ok (defaultAttrs_ok hd.attrs) (header_ok hd.elements) ha
    refine ⟨?_, hd.refs, numberEls_plain _ _ _ _ (fun _ h => nomatch h), fun _ h => nomatch h⟩
    refine leadingDecls_ok hd.elements ?_
    split
    · rename_i b t els e
      exact headerDecls_ok (header_ok hd.elements _ _ _ e).2.2.2 h1
    · exact h1

/-! ### The parts of the document -/

variable {L : Lib} {re : El → M Text} {pl : Bool → El → Except Err Text} (hL : LibOk R L) (hW : Within R images re pl)

theorem ref_els {l : List El} (h : RefOk R images (.els l)) : ∀ e ∈ l, Clean R images e := by
  cases h with
  | els h => exact h
  | other _ h => exact absurd rfl (h l)

mutual
theorem prerenderEntry_sat (hW : Within R images re pl) : ∀ {e : Toc}, TocIds R e → Sat R images (TocOk R) (prerenderEntry re e)
  | .entry id level title number children, h => by
    have h : Value R id ∧ ∀ e ∈ children, TocIds R e := by
      cases h with | entry h1 h2 => exact ⟨h1, h2⟩
    rw [prerenderEntry]
    refine (prerenderSections_sat hW (l := children) h.2).bind fun cs hcs => Sat.get.bind fun c hc => ?_
    split
    · rename_i l e
      refine (renderAll_sat hW (ref_els (hc.refs _ (lookup_mem' e)))).bind fun t ht => Sat.pure ?_
      refine .entry h.1 ht ?_ hcs
      cases hn : c.numbers.lookup id with
      | none => exact .empty
      | some x => exact (hc.numbers _ (lookup_mem' hn) : Plain x).markup
    · exact Sat.error
theorem prerenderSections_sat (hW : Within R images re pl) : ∀ {l : List Toc}, (∀ e ∈ l, TocIds R e) →
    Sat R images (fun r : List Toc => ∀ e ∈ r, TocOk R e) (prerenderSections re l)
  | [], _ => by rw [prerenderSections]; exact Sat.pure fun _ h => nomatch h
  | e :: l, h => by
    rw [prerenderSections]
    refine (prerenderEntry_sat hW (h e (List.mem_cons_self ..))).bind fun x hx => ?_
    refine (prerenderSections_sat hW (l := l) fun y hy => h y (List.mem_cons_of_mem _ hy)).bind fun r hr => Sat.pure ?_
    intro y hy
    rcases List.mem_cons.mp hy with rfl | hy
    · exact hx
    · exact hr y hy
end

/-- A rendered table of contents. -/
def TocDone (R : Rules) (t : Option (Option (List Toc))) : Prop := ∀ s, t = some (some s) → ∀ e ∈ s, TocOk R e

include hW in
theorem prerenderToc_sat {t : Option (Option (List Toc))} (h : ∀ s, t = some (some s) → ∀ e ∈ s, TocIds R e) :
    Sat R images (TocDone R) (prerenderToc re t) := by
  unfold prerenderToc
  split
  · rename_i l
    refine (prerenderSections_sat hW (h l rfl)).bind fun r hr => Sat.pure ?_
    intro s e; cases e; exact hr
  · rename_i hne
    refine Sat.pure ?_
    intro s e
    exact absurd e (hne s)

include hL hW in
theorem footnoteElement_sat {n : Footnote} (h : ∀ e ∈ n.els, Clean R images e) : Sat R images (Markup R) (footnoteElement L re n) := by
  unfold footnoteElement
  refine (renderInline_sat hW h).bind fun t ht => ?_
  have := markup_nl_space (markup_trim noTag_space ht)
  extract_lets content
  have hc : Markup R content := this
  clear_value content
  clear h
  exact exec_sat hL footnoteElement_ok (by fits) holds_nil

include hL hW in
theorem footnoteElements_sat : ∀ {l : List Footnote}, (∀ n ∈ l, ∀ e ∈ n.els, Clean R images e) → Sat R images (Markup R) (footnoteElements L re l)
  | [], _ => Sat.pure .empty
  | n :: l, h => by
    refine (footnoteElement_sat hL hW (h n (List.mem_cons_self ..))).bind fun t ht => ?_
    exact (footnoteElements_sat fun x hx => h x (List.mem_cons_of_mem _ hx)).bind fun u hu => Sat.pure (ht.append hu)

include hL hW in
theorem renderFootnotes_sat {l : List Footnote} (h : ∀ n ∈ l, ∀ e ∈ n.els, Clean R images e) : Sat R images (Markup R) (renderFootnotes L re l) := by
  unfold renderFootnotes
  refine Sat.ite (fun _ => Sat.pure .empty) fun _ => (footnoteElements_sat hL hW h).bind fun t ht => ?_
  clear h
  exact exec_sat hL footnotes_ok (by fits) holds_nil

theorem printed_author (i : Nat) : Printed (if i = 1 then "author" else "author_" ++ (if i = 1 then "" else toString i)) := by
  split
  · exact printed_mem (by decide)
  · refine Or.inr (Or.inl ?_)
    rw [List.isPrefixOf_iff_prefix, String.toList_append]
    exact List.prefix_append _ _

theorem printed_email (i : Nat) : Printed (if i = 1 then "email" else "email_" ++ (if i = 1 then "" else toString i)) := by
  split
  · exact printed_mem (by decide)
  · refine Or.inr (Or.inr (Or.inl ?_))
    rw [List.isPrefixOf_iff_prefix, String.toList_append]
    exact List.prefix_append _ _

theorem ne_tocTitle {p s : String} (h : p.toList.isPrefixOf "toc-title".toList = false) : p ++ s ≠ "toc-title" := by
  intro e
  have : p.toList <+: "toc-title".toList := by rw [← e, String.toList_append]; exact List.prefix_append _ _
  rw [List.isPrefixOf_iff_prefix.mpr this] at h
  cases h

include hL in
theorem authorDetails_sat {doc : Attrs} (hd : DocOk R images doc) : ∀ (fuel i : Nat), Sat R images (Markup R) (authorDetails L doc fuel i)
  | 0, _ => Sat.error
  | fuel + 1, i => by
    unfold authorDetails
    extract_lets index ak ek
    have hak : Printed ak := printed_author i
    have hek : Printed ek := printed_email i
    have hak' : ak ≠ "toc-title" := by
      show (if i = 1 then "author" else "author_" ++ index) ≠ "toc-title"
      split
      · decide
      · exact ne_tocTitle (by decide)
    have hek' : ek ≠ "toc-title" := by
      show (if i = 1 then "email" else "email_" ++ index) ≠ "toc-title"
      split
      · decide
      · exact ne_tocTitle (by decide)
    split
    · exact Sat.pure .empty
    · rename_i author ha
      have h1 := (doc_getStr hd hak' hak ha)
      have h2 : Safe R ((getStr doc ek).getD []) := by
        cases he : getStr doc ek with
        | none => exact Safe.nil
        | some t => exact doc_getStr hd hek' hek he
      have h3 : Safe R index.toList := by
        show Safe R (if i = 1 then "" else toString i).toList
        split
        · exact Safe.nil
        · exact int_safe (Int.ofNat i)
      have h4 := h1.1.markup (R := R)
      have h5 := h2.1.markup (R := R)
      have h6 := h2.2
      have h7 := h3.2
      refine Sat.bind (P := Markup R) (exec_sat hL documentAuthorDetails_ok ?_ holds_nil) fun t ht => ?_
      · generalize (getStr doc ek).getD [] = em at h5 h6 ⊢
        generalize index.toList = ix at h7 ⊢
        apply fits_of
        simp [AMap.get_cons, h4, h5, h6, h7]
      · refine (authorDetails_sat hd fuel (i + 1)).bind fun u hu => Sat.pure (Markup.append (Markup.append ?_ ht) hu)
        split
        · exact nl_markup
        · exact .empty

theorem doc_getStr_markup {doc : Attrs} (hd : DocOk R images doc) {k : String} (hk : k ≠ "toc-title") (hp : k ∈ printedKeys) :
    Markup R ((getStr doc k).getD []) := by
  cases h : getStr doc k with
  | none => exact .empty
  | some t => exact (doc_getStr hd hk (printed_mem hp) h).1.markup

include hL in
theorem documentDetails_sat : Sat R images (Markup R) (documentDetails L) := by
  unfold documentDetails
  refine docAttrs_sat.bind fun doc hd => Sat.ite (fun _ => ?_) fun _ => Sat.pure .empty
  refine (authorDetails_sat hL hd _ _).bind fun t ht => ?_
  have h1 := doc_getStr_markup hd (k := "version-label") (by decide) (by decide)
  have h2 := doc_getStr_markup hd (k := "revnumber") (by decide) (by decide)
  have h3 := doc_getStr_markup hd (k := "revdate") (by decide) (by decide)
  have h4 := doc_getStr_markup hd (k := "revremark") (by decide) (by decide)
  clear hd
  exact exec_sat hL documentDetails_ok (by fits) holds_nil

include hL hW in
theorem documentHeader_sat {h : Option (Attrs × Option (List El) × List El)} (hh : HeadOk R images h) :
    Sat R images (Markup R) (documentHeader L re h) := by
  cases h with
  | none => exact Sat.pure .empty
  | some p =>
    obtain ⟨a, title, els⟩ := p
    have ht : ∀ e ∈ title.getD [], Clean R images e := by
      cases title with
      | none => exact fun _ h => nomatch h
      | some t => exact (hh _ _ _ rfl).2.1 t rfl
    refine (renderAll_sat hW ht).bind fun t ht => (documentDetails_sat hL).bind fun d hd => ?_
    clear hh
    exact exec_sat hL articleHeader_ok (by fits) holds_nil

theorem inPreamble_clean {toc : Option (List Toc)} (ht : ∀ s, toc = some s → ∀ e ∈ s, TocOk R e) : ∀ {l : List El},
    (∀ e ∈ l, Clean R images e) → ∀ e ∈ inPreamble toc l, Clean R images e
  | [], _ => fun _ h => nomatch h
  | e :: l, h => by
    have ih := inPreamble_clean ht (l := l) fun x hx => h x (List.mem_cons_of_mem _ hx)
    by_cases hp : ∃ els t, e = .preamble els t
    · obtain ⟨els, t, rfl⟩ := hp
      intro x hx
      rcases List.mem_cons.mp hx with rfl | hx
      · cases h _ (List.mem_cons_self ..) with
        | preamble h1 _ => exact .preamble h1 ht
      · exact h x (List.mem_cons_of_mem _ hx)
    · have e1 : inPreamble toc (e :: l) = e :: inPreamble toc l := by
        cases e <;> first | rfl | exact absurd ⟨_, _, rfl⟩ hp
      rw [e1]
      intro x hx
      rcases List.mem_cons.mp hx with rfl | hx
      · exact h x (List.mem_cons_self ..)
      · exact ih x hx

theorem placeToc_clean {doc : Attrs} {toc : Option (Option (List Toc))} {source r : List El} (ht : TocDone R toc)
    (hs : ∀ e ∈ source, Clean R images e) (h : placeToc doc toc source = .ok r) : ∀ e ∈ r, Clean R images e := by
  have hc : ∀ s, toc = some s → ∀ e ∈ (.toc s :: source : List El), Clean R images e := by
    intro s e x hx
    rcases List.mem_cons.mp hx with rfl | hx
    · exact .toc fun l hl => ht l (by rw [e, hl])
    · exact hs x hx
  unfold placeToc at h
  split at h
  · rename_i t s _ _
    split at h
    · cases h; exact inPreamble_clean (fun l hl => ht l (by rw [hl])) hs
    · split at h
      · cases h; exact hc _ rfl
      · cases h
  · cases h; exact hc _ rfl
  · cases h
  · cases h; exact hs

include hL hW in
theorem documentBody_sat {source : List El} {toc : Option (Option (List Toc))} {notes : List Footnote} (hs : ∀ e ∈ source, Clean R images e)
    (ht : TocDone R toc) (hn : ∀ n ∈ notes, ∀ e ∈ n.els, Clean R images e) :
    Sat R images (Markup R) (documentBody L re source toc notes) := by
  unfold documentBody
  refine docAttrs_sat.bind fun doc hd => ?_
  refine Sat.bind (P := fun r : List El => ∀ e ∈ r, Clean R images e) (Sat.lift fun r hr => placeToc_clean ht hs hr) fun r hr => ?_
  exact (renderAll_sat hW hr).bind fun t ht => (renderFootnotes_sat hL hW hn).bind fun u hu => Sat.pure (ht.append hu)

theorem hasOption_set {a : Attrs} {k : String} {v : AV} (h : k ≠ "options") {o : String} (ho : o ≠ k) : hasOption (AMap.set a k v) o = hasOption a o := by
  unfold hasOption has
  show ((match AMap.get (AMap.set a k v) "options" with
   | some (.options l) => l.any (AV.isStr o.toList)
   | _ => false) || (AMap.get (AMap.set a k v) o).isSome) = _
  rw [AMap.get_set_ne _ _ (Ne.symm h), AMap.get_set_ne _ _ ho]
  rfl

include hL hW in
theorem manpageHeader_sat {head : Option (Option (List El))} {name : El} (hh : ∀ x, head = some (some x) → ∀ e ∈ x, Clean R images e)
    (hn : Clean R images name) : Sat R images (Markup R) (manpageHeader L re pl head name) := by
  unfold manpageHeader
  have hh' : ∀ e ∈ (head.getD none).getD [], Clean R images e := by
    cases head with
    | none => exact fun _ h => nomatch h
    | some x =>
      cases x with
      | none => exact fun _ h => nomatch h
      | some x => exact hh x rfl
  refine (renderAll_sat hW hh').bind fun h hh1 => ?_
  split
  · rename_i level a title els
    have hs : (∀ e ∈ title, Clean R images e) ∧ ∀ e ∈ els, Clean R images e := by
      cases hn with | sect _ h2 h3 => exact ⟨h2, h3⟩
    refine (renderAll_sat hW hs.1).bind fun n hn1 => ?_
    split
    · rename_i attrs pels rest
      have hp := hs.2 _ (List.mem_cons_self ..)
      refine Sat.bind (P := Markup R) ?_ fun t ht => ?_
      · cases hp with
        | paragraph ha hl hb hhb hv hlit hi =>
          have hst : getStr (AMap.set attrs "style" (.str "manpage".toList)) "style" = some "manpage".toList := by
            unfold getStr
            show (match AMap.get (AMap.set attrs "style" (.str "manpage".toList)) "style" with
              | some (.str t) => some t
              | _ => none) = _
            rw [AMap.get_set_self]
          refine renderParagraph_sat hL hW ?_ ⟨hl, hb⟩ ?_ ?_ ?_ ?_
          · intro k v hg
            rw [AMap.get_set] at hg
            split at hg
            · cases hg; exact .scalar (safe_lit (by decide) : Safe R _)
            · exact ha k v hg
          · rw [hasOption_set (by decide) (by decide)]; exact hhb
          · rw [hst]; exact fun e => absurd e (by decide)
          · rw [hst]; exact fun e => absurd e (by decide)
          · rw [hst]
            rintro _ ⟨t, ht, e⟩
            cases e
            exact absurd ht (by decide)
      · clear hh hh' hs hp hn
        exact exec_sat hL manpageHeader_ok (by fits) holds_nil
    · exact Sat.error
  · exact Sat.error

theorem bodyElements_mem : ∀ {l : List El} {e : El}, e ∈ bodyElements l → e ∈ l
  | [], _, h => h
  | x :: l, e, h => by
    by_cases hd : ∃ a t s, x = .docHeader a t s
    · obtain ⟨a, t, s, rfl⟩ := hd
      exact List.mem_cons_of_mem _ h
    · have e1 : bodyElements (x :: l) = x :: bodyElements l := by
        cases x <;> first | rfl | exact absurd ⟨_, _, _, rfl⟩ hd
      rw [e1] at h
      rcases List.mem_cons.mp h with rfl | h
      · exact List.mem_cons_self ..
      · exact List.mem_cons_of_mem _ (bodyElements_mem h)

include hL hW in
theorem splitAndRender_sat {wrap : Bool} {d : Doc} (he : ∀ e ∈ d.elements, Clean R images e) (ht : TocDone R d.toc)
    (hn : ∀ n ∈ d.footnotes, ∀ e ∈ n.els, Clean R images e) :
    Sat R images (fun p : Text × Text => Markup R p.1 ∧ Markup R p.2) (splitAndRender L re pl wrap d) := by
  unfold splitAndRender
  have hb : ∀ e ∈ bodyElements d.elements, Clean R images e := fun e h => he e (bodyElements_mem h)
  refine docAttrs_sat.bind fun doc hd => ?_
  extract_lets head
  have hh : HeadOk R images head := header_ok he
  refine Sat.ite (fun _ => ?_) fun _ => ?_
  · split
    · exact Sat.error
    · rename_i name rest e
      rw [e] at hb
      have h1 := hb _ (List.mem_cons_self ..)
      have h2 : ∀ e ∈ rest, Clean R images e := fun x hx => hb x (List.mem_cons_of_mem _ hx)
      refine Sat.ite (fun _ => ?_) fun _ => ?_
      · refine (manpageHeader_sat hL hW ?_ h1).bind fun h hh => (documentBody_sat hL hW h2 ht hn).bind fun b hb => Sat.pure ⟨hh, hb⟩
        intro x e
        obtain ⟨p, hp, e⟩ := Option.map_eq_some_iff.mp e
        obtain ⟨a, t, els⟩ := p
        exact (hh a t els hp).2.1 x e
      · exact (manpageHeader_sat hL hW (fun _ e => by cases e) h1).bind fun h hh =>
          (documentBody_sat hL hW h2 ht hn).bind fun b hb => Sat.pure ⟨.empty, hh.append hb⟩
  · exact (documentHeader_sat hL hW hh).bind fun h hh => (documentBody_sat hL hW hb ht hn).bind fun b hb => Sat.pure ⟨hh, hb⟩

include hL hW in
theorem renderParts_sat {wrap : Bool} {d : Doc} {cfg : Config} (hd : CleanDoc R images d cfg) :
    Sat R images (fun p : Text × Text × Text => Markup R p.1 ∧ Markup R p.2.1 ∧ Value R p.2.2) (renderParts L re pl wrap d) := by
  unfold renderParts
  refine (prerenderToc_sat hW hd.toc).bind fun toc ht => ?_
  refine (splitAndRender_sat hL hW (d := { d with toc := toc }) hd.elements ht hd.footnotes).bind fun hb h => ?_
  refine Sat.bind (P := Value R) ?_ fun roles hr => Sat.pure ⟨h.1, h.2, hr⟩
  have := header_ok hd.elements
  unfold documentRoles
  split
  · rename_i a t els e
    exact elementRoles_sat hW (this a t els e).1
  · exact Sat.pure Safe.nil.2

/-! ### The page -/

/-- A template without the declaration of the document type. -/
def stripDoctype : Tm → Tm
  | .text s k => .text (String.ofList (s.toList.drop "<!DOCTYPE html>\n".toList.length)) k
  | t => t

def articleFields : Fields :=
  [("Generator", .value), ("Description", .value), ("Authors", .value), ("CSS", .values), ("Title", .markup), ("ID", .value),
   ("Doctype", .value), ("Roles", .value), ("Header", .markup), ("Content", .markup), ("RevNumber", .markup), ("LastUpdated", .markup)]

theorem articleEnv_fits {x1 x2 x3 x5 x6 x7 x8 x9 x10 x11 x12 : Text} {x4 : List Text} {b1 b2 : Bool} (h1 : Value R x1) (h2 : Value R x2) (h3 : Value R x3)
    (h4 : ∀ t ∈ x4, Value R t) (h5 : Markup R x5) (h6 : Value R x6) (h7 : Value R x7) (h8 : Value R x8) (h9 : Markup R x9)
    (h10 : Markup R x10) (h11 : Markup R x11) (h12 : Markup R x12) :
    Fits R articleFields [("Doctype", .str x7), ("Generator", .str x1), ("Description", .str x2), ("Title", .str x5), ("Authors", .str x3),
      ("Header", .str x9), ("Roles", .str x8), ("ID", .str x6), ("Content", .str x10), ("RevNumber", .str x11), ("LastUpdated", .str x12),
      ("CSS", .strs x4), ("IncludeHTMLBodyHeader", .flag b1), ("IncludeHTMLBodyFooter", .flag b2)] := by
  have key : ∀ {p : String × Kind} {v w : Tmpl.Val} {env : Tmpl.Env}, AMap.get env p.1 = some v → AMap.get env p.1 = some w → p.2.ok R v → p.2.ok R w :=
    fun e1 e2 h => by rw [e1] at e2; cases e2; exact h
  apply fits_of
  intro p hp w hw
  unfold articleFields at hp
  rcases List.mem_cons.mp hp with rfl | hp
  · exact key rfl hw (ok_value.mpr h1)
  rcases List.mem_cons.mp hp with rfl | hp
  · exact key rfl hw (ok_value.mpr h2)
  rcases List.mem_cons.mp hp with rfl | hp
  · exact key rfl hw (ok_value.mpr h3)
  rcases List.mem_cons.mp hp with rfl | hp
  · exact key rfl hw (ok_values.mpr h4)
  rcases List.mem_cons.mp hp with rfl | hp
  · exact key rfl hw (ok_markup.mpr h5)
  rcases List.mem_cons.mp hp with rfl | hp
  · exact key rfl hw (ok_value.mpr h6)
  rcases List.mem_cons.mp hp with rfl | hp
  · exact key rfl hw (ok_value.mpr h7)
  rcases List.mem_cons.mp hp with rfl | hp
  · exact key rfl hw (ok_value.mpr h8)
  rcases List.mem_cons.mp hp with rfl | hp
  · exact key rfl hw (ok_markup.mpr h9)
  rcases List.mem_cons.mp hp with rfl | hp
  · exact key rfl hw (ok_markup.mpr h10)
  rcases List.mem_cons.mp hp with rfl | hp
  · exact key rfl hw (ok_markup.mpr h11)
  rcases List.mem_cons.mp hp with rfl | hp
  · exact key rfl hw (ok_markup.mpr h12)
  · cases hp

theorem article_ok : ∀ R : Rules, accepts R articleFields [] (stripDoctype (templatesOf R).article) = true :=
  forall_rules (by decide +kernel) (by decide +kernel)

theorem article_doctype : ∀ R : Rules, ∃ s k, (templatesOf R).article = .text s k ∧ "<!DOCTYPE html>\n".toList.isPrefixOf s.toList = true :=
  forall_rules (fun _ => ⟨_, _, rfl, by decide +kernel⟩) (fun _ => ⟨_, _, rfl, by decide +kernel⟩)

theorem article_page {lower : Text → Text} (hlow : LowerOk R lower) {env : Tmpl.Env} (hf : Fits R articleFields env) {t : Text}
    (h : (templatesOf R).article.render lower env = some t) : Page R t := by
  have hok := article_ok R
  obtain ⟨s, k, e, hp⟩ := article_doctype R
  rw [e] at h hok
  rw [Tm.render] at h
  obtain ⟨u, hu, rfl⟩ := Option.map_eq_some_iff.mp h
  refine ⟨s.toList.drop "<!DOCTYPE html>\n".toList.length ++ u, ?_, ?_⟩
  · obtain ⟨q, hq⟩ := List.isPrefixOf_iff_prefix.mp hp
    rw [← hq, List.drop_left', List.append_assoc]
    rfl
  · refine accepts_sound hlow hok hf holds_nil ?_
    rw [stripDoctype, Tm.render, hu, String.toList_ofList]
    rfl

theorem authorNames_safe : ∀ {l : List Author} {r : List Text}, (∀ a ∈ l, AuthorOk R a) → authorNames l = .ok r → ∀ t ∈ r, Safe R t
  | [], r, _, h => by cases h; exact fun _ h => nomatch h
  | a :: l, r, hl, h => by
    unfold authorNames at h
    cases h1 : fullName a with
    | error x => rw [h1] at h; cases h
    | ok t =>
      cases h2 : authorNames l with
      | error x => rw [h1, h2] at h; cases h
      | ok u =>
        rw [h1, h2] at h
        cases h
        intro x hx
        rcases List.mem_cons.mp hx with rfl | hx
        · exact fullName_safe (hl a (List.mem_cons_self ..)) h1
        · exact authorNames_safe (fun y hy => hl y (List.mem_cons_of_mem _ hy)) h2 x hx

theorem authorsMeta_value {h : Option (Attrs × Option (List El) × List El)} (hh : HeadOk R images h) {t : Text}
    (e : authorsMeta h = .ok t) : Value R t := by
  cases h with
  | none => cases e; exact Safe.nil.2
  | some p =>
    obtain ⟨a, title, els⟩ := p
    unfold authorsMeta at e
    dsimp only at e
    split at e
    · cases e
    · cases e; exact Safe.nil.2
    · rename_i l hl
      have hok := authorsOf_ok (hh _ _ _ rfl).2.2.2 (fun _ e => by cases e) hl l rfl
      split at e
      · cases e
      · rename_i ts hts
        cases e
        exact safe_join (safe_lit (by decide)).2 fun x hx => (authorNames_safe hok hts x hx).2

theorem documentTitle_markup {pl : El → Except Err Text} (hpl : ∀ e, TextClean e → ∀ t, pl e = .ok t → Markup R t)
    {h : Option (Attrs × Option (List El) × List El)} (hh : HeadOk R images h) {t : Text} (e : documentTitle pl h = .ok t) : Markup R t := by
  unfold documentTitle at e
  split at e
  · rename_i a x els
    exact plainInline_markup (fun y hy => hpl y ((hh _ _ _ rfl).2.2.1 x rfl y hy)) t e
  · cases e; exact (plain_lit (by decide)).markup

include hL in
theorem renderPage_ok {d : Doc} {cfg : Config} (hd : CleanDoc R images d cfg) {c : Ctx} (hc : Inv R images c) {title : Text}
    (ht : Markup R title) {parts : Text × Text × Text} (hp : Markup R parts.1 ∧ Markup R parts.2.1 ∧ Value R parts.2.2) {t : Text}
    (e : renderPage L d cfg title parts c = .ok t) : if cfg.wrap then Page R t else Markup R t := by
  have hh := header_ok hd.elements
  unfold renderPage at e
  split at e
  · rename_i hw
    rw [if_pos hw]
    split at e
    · cases e
    · rename_i authors ha
      split at e
      · rename_i u hu
        cases e
        rw [hL.tmpl] at hu
        refine article_page hL.lower ?_ hu
        have h1 := authorsMeta_value hh ha
        have h2 := (doc_getStrD hL hc.attrs (k := "doctype") (by decide) (printed_mem (by decide)) (d := "article".toList) (safe_lit (by decide))).2
        have h3 := (doc_getStrD hL hc.attrs (k := "description") (by decide) (printed_mem (by decide)) (d := []) Safe.nil).2
        have h4 := (doc_getStrD hL hc.attrs (k := "revnumber") (by decide) (printed_mem (by decide)) (d := []) Safe.nil).1.markup (R := R)
        have h5 : Value R (match header d.elements with | some (a, _, _) => elementID a | none => []) := by
          split
          · rename_i a t els e; exact elementID_value (hh a t els e).1
          · exact Safe.nil.2
        have h6 : Value R "libasciidoc".toList := (safe_lit (by decide)).2
        have h7 := hd.lastUpdated.markup (R := R)
        have h8 := hd.css
        obtain ⟨p1, p2, p3⟩ := parts
        obtain ⟨hp1, hp2, hp3⟩ := hp
        unfold articleEnv
        generalize getStrD L.sprint c.attrs "doctype" "article".toList = x2 at h2 ⊢
        generalize getStrD L.sprint c.attrs "description" [] = x3 at h3 ⊢
        generalize getStrD L.sprint c.attrs "revnumber" [] = x4 at h4 ⊢
        generalize "libasciidoc".toList = x6 at h6 ⊢
        dsimp only at hp1 hp2 hp3
        exact articleEnv_fits h6 h3 h1 h8 ht h5 h2 hp3 hp1 hp2 h4 h7
      · cases e
  · rename_i hw
    cases e
    rw [if_neg hw]
    exact hp.2.1

include hL in
/-- The output is well-formed. -/
theorem render_ok {d : Doc} {cfg : Config} (hd : CleanDoc R images d cfg) (n : Nat) {t : Text} (e : render L n d cfg = .ok t) :
    if cfg.wrap then Page R t else Markup R t := by
  have hW := within_all (images := images) hL n
  unfold render at e
  extract_lets re pl at e
  split at e
  · cases e
  · rename_i c hc
    split at e
    · cases e
    · rename_i title htitle
      have ht := documentTitle_markup (fun e he => hW.plain true e he) (header_ok hd.elements) htitle
      split at e
      · cases e
      · rename_i parts c' hp
        obtain ⟨h1, h2⟩ := renderParts_sat hL hW (wrap := cfg.wrap) hd _ _ _ (startContext_inv hd hc) hp
        exact renderPage_ok hL hd h2 ht h1 e

end
end Verif.Rend
