import Verif.Proofs.RenderWf
import Verif.Props.IdText
/-!
The renderer writes well-formed fragments: cross references, footnotes, images, icons, user interface macros.
-/
namespace Verif.Rend
open Verif.Html Verif.Tmpl

def DocOk (R : Rules) (images : Bool) (a : Attrs) : Prop := ∀ k v, AMap.get a k = some v → DocV R images k v

theorem docV_value {R images k v} (h : DocV R images k v) (hk : k ≠ "toc-title") : DocValue R images k v := by
  cases h with
  | value h => exact h
  | tocTitle => exact absurd rfl hk
  | tocTitleText => exact absurd rfl hk

section
variable {R : Rules} {images : Bool} {L : Lib} {re : El → M Text} {pl : Bool → El → Except Err Text}
  (hL : LibOk R L) (hW : Within R images re pl)

theorem doc_scalar {a : Attrs} (ha : DocOk R images a) {k : String} (hk : k ≠ "toc-title") (hp : Printed k) :
    ∀ v, AMap.get a k = some v → Scalar R v := fun v hv => (docV_value (ha k v hv) hk).printed hp

include hL in
theorem doc_getStrD {a : Attrs} (ha : DocOk R images a) {k : String} (hk : k ≠ "toc-title") (hp : Printed k) {d : Text}
    (hd : Safe R d) : Safe R (getStrD L.sprint a k d) :=
  getStrD_scalar hL (doc_scalar ha hk hp) hd

theorem doc_getStr {a : Attrs} (ha : DocOk R images a) {k : String} (hk : k ≠ "toc-title") (hp : Printed k) {t : Text}
    (h : getStr a k = some t) : Safe R t := doc_scalar ha hk hp _ (getStr_some h)

theorem printed_mem {k : String} (h : k ∈ printedKeys) : Printed k := Or.inl h

theorem printed_caption {k : String} (h : "-caption".toList.isSuffixOf k.toList = true) : Printed k := Or.inr (Or.inr (Or.inr h))

/-! ### Cross references and footnotes -/

include hW in
theorem xrefLabel_sat : ∀ {l : List El}, (∀ e ∈ l, Clean R images e) → (∀ loc a, .link loc a ∈ l → TextClean (.link loc a)) →
    Sat R images (Markup R) (xrefLabel re pl l)
  | [], _, _ => Sat.pure .empty
  | e :: l, h, h' => by
    have ih := xrefLabel_sat (fun x hx => h x (List.mem_cons_of_mem _ hx)) (fun loc a hx => h' loc a (List.mem_cons_of_mem _ hx))
    have he := h e (List.mem_cons_self ..)
    by_cases hlink : ∃ loc a, e = .link loc a
    · obtain ⟨loc, a, rfl⟩ := hlink
      refine Sat.bind (P := Markup R) (Sat.lift ?_) fun t ht => ih.bind fun u hu => Sat.pure (ht.append hu)
      exact hW.plain true _ (h' loc a (List.mem_cons_self ..))
    · have e1 : xrefLabel re pl (e :: l) = (do
          let t ← re e
          let u ← xrefLabel re pl l
          return t ++ u) := by
        cases e <;> first | rfl | exact absurd ⟨_, _, rfl⟩ hlink
      rw [e1]
      exact (hW.markup e he).bind fun t ht => ih.bind fun u hu => Sat.pure (ht.append hu)

theorem plain_lit {t : Text} (h : t.all (fun c => c != '<' && c != '>') = true) : Plain t := fun c hc => by
  simpa using List.all_eq_true.mp h c hc

include hW in
theorem refLabel_sat {id : Text} (hid : Plain id) {v : Option AV} (hv : ∀ x, v = some x → RefOk R images x) :
    Sat R images (Markup R) (refLabel re pl id v) := by
  unfold refLabel
  split
  · rename_i t
    cases hv _ rfl with
    | str h => exact Sat.pure h.markup
    | other h => exact absurd rfl (h t)
  · rename_i l
    cases hv _ rfl with
    | els h h' => exact xrefLabel_sat hW h h'
    | other _ h => exact absurd rfl (h l)
  · exact Sat.error
  · exact Sat.pure (Plain.markup (Plain.append (Plain.append (plain_lit (by decide)) hid) (plain_lit (by decide))))

include hL hW in
theorem renderXref_sat {id label : AV} (hid : ∀ t, id = .str t → Safe R t) (hlabel : ∀ t, label = .str t → Plain t) :
    Sat R images (Markup R) (renderXref L re pl id label) := by
  unfold renderXref
  split
  · rename_i xid
    refine Sat.get.bind fun c hc => ?_
    have hx := hid _ rfl
    have hx2 := hx.2
    refine Sat.bind (P := Markup R) ?_ fun text htext => exec_sat hL internalCrossReference_ok (by fits) holds_nil
    split
    · rename_i t; exact Sat.pure (hlabel t rfl).markup
    · exact refLabel_sat hW hx.1 fun v hv => hc.refs _ (lookup_mem' hv)
  · exact Sat.error

theorem extPage_safe {t : Text} (h : Safe R t) : Safe R (extPage t) :=
  (h.sub fun _ hc => List.mem_of_mem_take hc).append (safe_lit (by decide))

theorem extHref_safe {t : Text} (h : Safe R t) : Safe R (extHref t) := by
  unfold extHref
  split
  · exact (safe_lit (by decide)).append h
  · exact extPage_safe h

include hW in
theorem extLabel_sat {a : Attrs} (ha : AttrsOk R images a) {t : Text} (ht : Safe R t) : Sat R images (Markup R) (extLabel re a t) := by
  unfold extLabel
  split
  · rename_i u e; exact Sat.pure (str_plain (ha _ _ e)).markup
  · rename_i l e; exact renderInline_sat hW (els_clean (ha _ _ e))
  · refine Sat.pure ?_
    split
    · exact Plain.markup (Plain.append (Plain.append (plain_lit (by decide)) ht.1) (plain_lit (by decide)))
    · exact (extPage_safe ht).1.markup

include hL hW in
theorem renderExtXref_sat {loc : Option Loc} {a : Attrs} (ha : AttrsOk R images a) (hloc : ∀ l, loc = some l → LocOk (Safe R) l) :
    Sat R images (Markup R) (renderExtXref L re loc a) := by
  unfold renderExtXref
  refine Sat.get.bind fun c hc => ?_
  have hd := displayOf_safe (L := L) hc hloc
  refine (extLabel_sat hW ha hd).bind fun label hlabel => ?_
  have hh := (extHref_safe hd).2
  exact exec_sat hL externalCrossReference_ok (by fits) holds_nil

include hL in
theorem renderFootnoteRef_sat {i : Int} {r : Text} {d : Bool} (hr : Safe R r) :
    Sat R images (Markup R) (renderFootnoteRef L i r d) := by
  unfold renderFootnoteRef
  have h1 := hr.1.markup (R := R)
  have h2 := hr.2
  refine Sat.ite (fun _ => exec_sat hL footnote_ok (by fits) holds_nil) fun _ => ?_
  exact Sat.ite (fun _ => exec_sat hL footnoteRef_ok (by fits) holds_nil)
    fun _ => exec_sat hL invalidFootnote_ok (by fits) holds_nil

/-! ### Images -/

theorem setPathPrefix_sat {p : Text} {l : Loc} (hp : Safe R p) (hp' : '%' ∉ p) :
    Sat R images (fun _ => True) (setPathPrefix L p l) := by
  unfold setPathPrefix
  refine Sat.ite (fun _ => Sat.pure trivial) fun _ => Sat.get.bind fun c hc => ?_
  refine Sat.ite (fun _ => Sat.modify ?_) fun _ => Sat.pure trivial
  refine fun c hc => ⟨hc.attrs, hc.refs, hc.numbers, fun q hq => ?_⟩
  rcases List.mem_cons.mp hq with rfl | hq
  · have h1 := prefixOf_safe hc l
    dsimp only
    split
    · exact ⟨hp.append h1.1, by simp [hp', h1.2]⟩
    · refine ⟨(hp.append (safe_lit (by decide))).append h1.1, ?_⟩
      simp [hp', h1.2]
  · exact hc.prefixes q hq

theorem imagesdir_safe {a : Attrs} (ha : DocOk R images a) : Safe R ((getStr a "imagesdir").getD []) ∧
    '%' ∉ (getStr a "imagesdir").getD [] := by
  cases h : getStr a "imagesdir" with
  | none => exact ⟨Safe.nil, fun h => nomatch h⟩
  | some t =>
    exact ⟨doc_getStr ha (by decide) (printed_mem (by decide)) h,
      (docV_value (ha _ _ (getStr_some h)) (by decide)).imagesdir rfl t rfl⟩

include hL in
theorem imageSrc_sat {l : Loc} (h : LocOk (Safe R) l) :
    Sat R images (fun t => Safe R t ∧ (LocOk (fun t => '%' ∉ t) l → '%' ∉ t)) (imageSrc L l) := by
  unfold imageSrc
  refine docAttrs_sat.bind fun doc hdoc => ?_
  refine (setPathPrefix_sat (imagesdir_safe hdoc).1 (imagesdir_safe hdoc).2).bind fun _ _ => Sat.get.bind fun c hc => Sat.pure ?_
  obtain ⟨hp1, hp2⟩ := prefixOf_safe hc l
  have hs : Safe R (locString L (prefixOf c l) l) := by
    obtain ⟨t, ht, e⟩ := locString_of (L := L) h (prefixOf c l)
    exact safe_prefixed ht hp1 (Or.inl e)
  have hn : LocOk (fun t => '%' ∉ t) l → '%' ∉ locString L (prefixOf c l) l := by
    intro h
    obtain ⟨t, ht, e⟩ := locString_of (L := L) h (prefixOf c l)
    simp only [List.mem_append, not_or] at ht
    rw [e]; simp [ht, hp2]
  split
  · exact ⟨(hL.dataUri _ hs).1, fun h => (hL.dataUri _ hs).2 (hn h)⟩
  · exact ⟨hs, hn⟩

include hL in
theorem imageAlt_sat {a : Attrs} (ha : AttrsOk R images a) {src : Text} (hs : Safe R src)
    (h : (∃ t, AMap.get a "alt" = some (.str t)) ∨ '%' ∉ src) : Sat R images (Value R) (imageAlt L a src) := by
  unfold imageAlt
  split
  · rename_i t e; exact Sat.pure (getStr_safe ha (by decide) e).2
  · rename_i e
    have h : '%' ∉ src := by
      rcases h with ⟨t, ht⟩ | h
      · unfold getStr at e; rw [ht] at e; cases e
      · exact h
    split
    · rename_i t e'; exact Sat.pure (hL.altOf _ _ hs h e').2
    · exact Sat.error

theorem captionText_plain {k : Captions.Kind} {a doc : Attrs} (ha : AttrsOk R images a) (hd : DocOk R images doc) :
    Plain (captionText k a doc) := by
  unfold captionText
  split
  · rename_i t e; exact getStr_plain ha e
  · split
    · rename_i t e
      have ht : Plain t := by
        cases k
        · exact (doc_getStr hd (by decide) (printed_caption (by decide)) e).1
        · exact (doc_getStr hd (by decide) (printed_caption (by decide)) e).1
        · exact (doc_getStr hd (by decide) (printed_caption (by decide)) e).1
      split
      · exact ht
      · refine Plain.append (Plain.append (Plain.append ht (plain_lit (by decide))) ?_) (plain_lit (by decide))
        cases k <;> exact plain_lit (by decide)
    · exact fun _ h => nomatch h

theorem caption_sat {k : Captions.Kind} {a : Attrs} (ha : AttrsOk R images a) : Sat R images (Markup R) (caption k a) := by
  unfold caption
  refine Sat.get.bind fun c hc => ?_
  have hp := captionText_plain (k := k) ha hc.attrs
  refine Sat.ite (fun _ => ?_) fun _ => Sat.pure hp.markup
  refine Sat.bind (P := fun _ => True) (Sat.modify ?_) fun _ _ => Sat.pure (Plain.markup ?_)
  · exact fun c hc => ⟨hc.attrs, hc.refs, hc.numbers, hc.prefixes⟩
  · intro c hc
    rcases C15.mem_replaceAll hc with h | h
    · exact hp c h
    · exact (itoa_safe (R := R) _).1 c h

theorem optCaption_sat {b : Bool} {k : Captions.Kind} {a : Attrs} (ha : AttrsOk R images a) :
    Sat R images (Markup R) (optCaption b k a) :=
  Sat.ite (fun _ => caption_sat ha) fun _ => Sat.pure .empty

include hL hW in
theorem renderImageBlock_sat {l : Loc} {a : Attrs} (ha : AttrsOk R images a) (hl : LocOk (Safe R) l)
    (halt : (∃ t, AMap.get a "alt" = some (.str t)) ∨ LocOk (fun t => '%' ∉ t) l) :
    Sat R images (Markup R) (renderImageBlock L re l a) := by
  unfold renderImageBlock
  refine (elementTitle_sat hW ha).bind fun title htitle => (optCaption_sat ha).bind fun cap hcap => ?_
  refine (imageRoles_sat hW ha).bind fun roles hroles => (imageSrc_sat hL hl).bind fun src hsrc => ?_
  refine (imageAlt_sat hL ha hsrc.1 (halt.imp id hsrc.2)).bind fun alt halt => ?_
  have h1 := elementID_value ha
  have h2 := (getStrD_safe hL ha (k := "link") (by decide) Safe.nil).2
  have h3 := (getStrD_safe hL ha (k := "width") (by decide) Safe.nil).2
  have h4 := (getStrD_safe hL ha (k := "height") (by decide) Safe.nil).2
  have h5 := hsrc.1.2
  clear hsrc
  exact exec_sat hL blockImage_ok (by fits) holds_nil

include hW in
theorem valueTitle_sat {a : Attrs} (h1 : ∀ t, AMap.get a "title" = some (.str t) → Safe R t)
    (h2 : ∀ l, AMap.get a "title" = some (.els l) → ∀ e ∈ l, Simple R e) : Sat R images (Value R) (elementTitle re a) := by
  unfold elementTitle
  split
  · exact Sat.pure Safe.nil.2
  · rename_i t e; exact Sat.pure (h1 t e).2
  · rename_i l e; exact renderSimple_sat hW (h2 l e)
  · exact Sat.error

include hL hW in
theorem renderInlineImage_sat {l : Loc} {a : Attrs} (ha : AttrsOk R images a) (hl : LocOk (Safe R) l)
    (halt : (∃ t, AMap.get a "alt" = some (.str t)) ∨ LocOk (fun t => '%' ∉ t) l)
    (h1 : ∀ t, AMap.get a "title" = some (.str t) → Safe R t)
    (h2 : ∀ l, AMap.get a "title" = some (.els l) → ∀ e ∈ l, Simple R e) :
    Sat R images (Markup R) (renderInlineImage L re l a) := by
  unfold renderInlineImage
  refine (imageRoles_sat hW ha).bind fun roles hroles => (imageSrc_sat hL hl).bind fun src hsrc => ?_
  refine (imageAlt_sat hL ha hsrc.1 (halt.imp id hsrc.2)).bind fun alt halt => ?_
  refine (valueTitle_sat hW h1 h2).bind fun title htitle => ?_
  have h2 := (getStrD_safe hL ha (k := "link") (by decide) Safe.nil).2
  have h3 := (getStrD_safe hL ha (k := "width") (by decide) Safe.nil).2
  have h4 := (getStrD_safe hL ha (k := "height") (by decide) Safe.nil).2
  have h5 := hsrc.1.2
  clear hsrc h1
  exact exec_sat hL inlineImage_ok (by fits) holds_nil

/-! ### Icons -/

include hL in
theorem iconPath_safe {doc : Attrs} (hd : DocOk R images doc) {name : Text} (hn : Safe R name) : Safe R (iconPath L doc name) := by
  unfold iconPath
  refine hL.join _ _ ?_ ?_
  · refine doc_getStrD hL hd (by decide) (printed_mem (by decide)) (hL.join _ _ ?_ (safe_lit (by decide)))
    exact doc_getStrD hL hd (by decide) (printed_mem (by decide)) (safe_lit (by decide))
  · exact (hn.append (safe_lit (by decide))).append (doc_getStrD hL hd (by decide) (printed_mem (by decide)) (safe_lit (by decide)))

theorem iconClasses_safe {k : Text} : Safe R ((defaultIconClasses.lookup k).getD []) := by
  cases h : defaultIconClasses.lookup k with
  | none => exact Safe.nil
  | some t =>
    have key : ∀ p ∈ defaultIconClasses, p.2.all (fun c => c != '<' && c != '>' && c != '"' && c != '\n') = true := by decide +kernel
    exact safe_lit (key _ (lookup_mem' h))

theorem isSuffix_caption (cls : Text) : "-caption".toList.isSuffixOf (String.ofList (cls ++ "-caption".toList)).toList = true := by
  rw [String.toList_ofList (l := cls ++ "-caption".toList)]
  exact List.isSuffixOf_iff_suffix.mpr (List.suffix_append ..)

theorem caption_ne_toc (cls : Text) : String.ofList (cls ++ "-caption".toList) ≠ "toc-title" := by
  intro h
  have := isSuffix_caption cls
  rw [h] at this
  revert this; decide

include hL in
theorem iconCaption_safe {a doc : Attrs} (ha : AttrsOk R images a) (hd : DocOk R images doc) (cls : Text) :
    Safe R (getStrD L.sprint a "caption" (getStrD L.sprint doc (String.ofList (cls ++ "-caption".toList))
      ((defaultIconClasses.lookup (cls ++ "-caption".toList)).getD []))) := by
  refine getStrD_safe hL ha (by decide) (doc_getStrD hL hd (caption_ne_toc cls) (printed_caption (isSuffix_caption cls)) iconClasses_safe)

theorem getStrD_ne {sprint : AV → Text} {a : Attrs} {k : String} {d : Text} (h : ∀ v, AMap.get a k = some v → ∃ t, v = .str t ∧ t ≠ [])
    (hd : d ≠ []) : getStrD sprint a k d ≠ [] := by
  unfold getStrD
  cases hg : AMap.get a k with
  | none => exact hd
  | some v =>
    obtain ⟨t, rfl, ht⟩ := h v hg
    exact ht

theorem names_caption : ∀ cls ∈ admonitionNames.map (·.2), String.ofList (cls ++ "-caption".toList) ∈ admonitionCaptions ∧
    (defaultIconClasses.lookup (cls ++ "-caption".toList)).getD [] ≠ [] := by decide +kernel

theorem iconCaption_ne {a doc : Attrs} (hi : images = true) (ha : IconCaption a) (hd : DocOk R images doc) {cls : Text}
    (hc : cls ∈ admonitionNames.map (·.2)) :
    getStrD L.sprint a "caption" (getStrD L.sprint doc (String.ofList (cls ++ "-caption".toList))
      ((defaultIconClasses.lookup (cls ++ "-caption".toList)).getD [])) ≠ [] := by
  refine getStrD_ne ha (getStrD_ne ?_ (names_caption cls hc).2)
  intro v hv
  exact (docV_value (hd _ _ hv) (caption_ne_toc cls)).captions hi (names_caption cls hc).1

include hL in
theorem renderIcon_sat {cls : Text} {a : Attrs} {adm : Bool} (ha : AttrsOk R images a) (hcls : Safe R cls)
    (htitle : adm = false → ∀ v, AMap.get a "title" = some v → Scalar R v)
    (hinline : adm = false → images = true → cls ≠ [] ∧ ∀ v, AMap.get a "alt" = some v → ∃ t, v = .str t ∧ t ≠ [])
    (hadm : adm = true → images = true → IconCaption a ∧ cls ∈ admonitionNames.map (·.2)) :
    Sat R images (Markup R) (renderIcon L cls a adm) := by
  unfold renderIcon
  refine docAttrs_sat.bind fun doc hd => ?_
  have hd : DocOk R images doc := hd
  have hcap := iconCaption_safe hL ha hd cls
  have hsrc := (iconPath_safe hL hd hcls).2
  have h1 := (getStrD_safe hL ha (k := "width") (by decide) Safe.nil).2
  have h2 := (getStrD_safe hL ha (k := "height") (by decide) Safe.nil).2
  have h3 := (getStrD_safe hL ha (k := "size") (by decide) Safe.nil).2
  have h4 := (getStrD_safe hL ha (k := "rotate") (by decide) Safe.nil).2
  have h5 := (getStrD_safe hL ha (k := "flip") (by decide) Safe.nil).2
  have hclsv := hcls.2
  extract_lets icons key cap font alt title env
  have halt : Safe R alt := by
    show Safe R (if adm = true then (if font = true then [] else cap) else _)
    split
    · split
      · exact Safe.nil
      · exact hcap
    · exact getStrD_safe hL ha (by decide) hcls
  have htit : Value R title := by
    show Value R (if adm = true then (if font = true then cap else []) else _)
    split
    · split
      · exact hcap.2
      · exact Safe.nil.2
    · rename_i h
      exact (getStrD_scalar hL (htitle (by simpa using h)) Safe.nil).2
  have haltv := halt.2
  have haltm := halt.1.markup (R := R)
  refine Sat.ite (fun _ => exec_sat hL iconFont_ok ?_ holds_nil) fun hfont => ?_
  · apply fits_of; simp [env, AMap.get_cons, *]
  refine Sat.ite (fun _ => exec_sat hL iconText_ok ?_ holds_nil) fun htext => ?_
  · apply fits_of; simp [env, AMap.get_cons, *]
  refine Sat.ite (fun himg => exec_sat hL iconImage_ok ?_ ?_) fun _ => Sat.error
  · apply fits_of; simp [env, AMap.get_cons, *]
  · have hi : images = true := by
      cases hi : images with
      | true => rfl
      | false =>
        exfalso
        have himg : getStrD L.sprint doc "icons" "text".toList = "image".toList ∨ getStrD L.sprint doc "icons" "text".toList = [] := himg
        unfold getStrD at himg
        cases hg : AMap.get doc "icons" with
        | none =>
          rw [hg] at himg
          exact himg.elim (fun h => absurd (show "text".toList = "image".toList from h) (by decide))
            (fun h => absurd (show "text".toList = [] from h) (by decide))
        | some v =>
          obtain ⟨t, rfl, ht⟩ := (docV_value (hd _ _ hg) (by decide)).icons rfl
          rw [hg] at himg
          exact himg.elim (ht hi).1 (ht hi).2
    have hne : alt ≠ [] := by
      show (if adm = true then (if font = true then [] else cap) else _) ≠ []
      split
      · rename_i h
        split
        · rename_i hf
          exact absurd (by simpa [font] using hf) hfont
        · exact iconCaption_ne hi (hadm h hi).1 hd (hadm h hi).2
      · rename_i h
        have := hinline (by simpa using h) hi
        exact getStrD_ne this.2 this.1
    intro p hp
    rw [List.mem_singleton] at hp
    subst hp
    show (AMap.get env "Alt").map Val.truth = some true
    have : AMap.get env "Alt" = some (.str alt) := by simp [env, AMap.get_cons]
    rw [this]
    simp [Val.truth, hne]

theorem roles_str {k : String} {v : AV} (h : CleanV R images k v) (hk : k = "roles") :
    Scalar R v ∨ ∃ l, v = .roles l ∧ ∀ x ∈ l, RoleOk R x := by
  cases h with
  | scalar h => exact Or.inl h
  | text hm => subst hk; exact absurd hm (by decide)
  | els hm => subst hk; exact absurd hm (by decide)
  | roles h => exact Or.inr ⟨_, rfl, h⟩
  | options => exact absurd hk (by decide)
  | check => exact absurd hk (by decide)
  | cols => exact absurd hk (by decide)
  | noCols => exact absurd hk (by decide)

include hL in
theorem iconRole_safe {a : Attrs} (ha : AttrsOk R images a)
    (h : ∀ l, AMap.get a "roles" = some (.roles l) → ∀ v ∈ l, ∃ t, v = .str t) : Safe R (getStrD L.sprint a "roles" []) := by
  cases hg : AMap.get a "roles" with
  | none => unfold getStrD; rw [hg]; exact Safe.nil
  | some v =>
    rcases roles_str (ha _ _ hg) rfl with hs | ⟨l, rfl, hl⟩
    · refine getStrD_scalar hL (fun w hw => ?_) Safe.nil
      rw [hg] at hw; cases hw; exact hs
    · unfold getStrD; rw [hg]
      refine hL.sprintRoles l fun v hv => ?_
      obtain ⟨t, rfl⟩ := h l hg v hv
      exact ⟨t, rfl, hl _ hv⟩

include hL in
theorem renderInlineIcon_sat {cls : Text} {a : Attrs} (ha : AttrsOk R images a) (hcls : Safe R cls)
    (htitle : ∀ v, AMap.get a "title" = some v → Scalar R v)
    (hroles : ∀ l, AMap.get a "roles" = some (.roles l) → ∀ v ∈ l, ∃ t, v = .str t)
    (himg : images = true → cls ≠ [] ∧ ∀ v, AMap.get a "alt" = some v → ∃ t, v = .str t ∧ t ≠ []) :
    Sat R images (Markup R) (renderInlineIcon L cls a) := by
  unfold renderInlineIcon
  refine (renderIcon_sat (adm := false) hL ha hcls (fun _ => htitle) (fun _ => himg) (fun h => nomatch h)).bind fun icon hicon => ?_
  have h1 := elementID_value ha
  have h2 := (getStrD_safe hL ha (k := "link") (by decide) Safe.nil).2
  have h3 := (getStrD_safe hL ha (k := "window") (by decide) Safe.nil).2
  have h4 := (iconRole_safe hL ha hroles).2
  clear htitle hroles himg
  exact exec_sat hL inlineIcon_ok (by fits) holds_nil

/-! ### Buttons, menus, callouts -/

include hL in
theorem renderButton_sat {a : Attrs} {t : Text} (h : AMap.get a "label" = some (.str t)) (ht : Plain t) :
    Sat R images (Markup R) (renderButton L a) := by
  unfold renderButton
  have e : a.get "label" = some (.str t) := h
  rw [e]
  have h1 := ht.markup (R := R)
  exact exec_sat hL inlineButton_ok (by fits) holds_nil

/-- A text within tags. -/
theorem markup_within {pre t post : Text} {s : Html.St} (hs : ∃ stk, s = ⟨.text, stk⟩) (h1 : scan R ⟨.text, []⟩ pre = some s)
    (h2 : scan R s post = some ⟨.text, []⟩) (ht : Markup R t) : Markup R (pre ++ t ++ post) := by
  obtain ⟨stk, rfl⟩ := hs
  rw [markup_iff, scan_append, scan_append, h1]
  show ((scan R ⟨.text, stk⟩ t).bind fun s' => scan R s' post) = _
  rw [ht.scan]; exact h2

theorem scan_rules {s s' : Html.St} {t : Text} (h : ∀ x o, scan ⟨x, o⟩ s t = some s') : scan R s t = some s' := by
  obtain ⟨x, o⟩ := R; exact h x o

theorem menuTail_markup : ∀ {l : List Text}, (∀ t ∈ l, Plain t) → Markup R (menuTail l)
  | [], _ => .empty
  | [t], h =>
    markup_within (s := ⟨.text, ["b".toList]⟩) ⟨_, rfl⟩ (scan_rules (by decide +kernel)) (scan_rules (by decide +kernel))
      (h t (List.mem_singleton.mpr rfl)).markup
  | t :: u :: l, h =>
    (markup_within (s := ⟨.text, ["b".toList]⟩) ⟨_, rfl⟩ (scan_rules (by decide +kernel)) (scan_rules (by decide +kernel))
      (h t (List.mem_cons_self ..)).markup).append (menuTail_markup fun x hx => h x (List.mem_cons_of_mem _ hx))

theorem renderMenu_markup : ∀ {l : List Text}, l ≠ [] → (∀ t ∈ l, Plain t) → Markup R (renderMenu l)
  | [], h, _ => absurd rfl h
  | [t], _, h =>
    markup_within (s := ⟨.text, ["b".toList]⟩) ⟨_, rfl⟩ (scan_rules (by decide +kernel)) (scan_rules (by decide +kernel))
      (h t (List.mem_singleton.mpr rfl)).markup
  | t :: u :: l, _, h => by
    have ht := (h t (List.mem_cons_self ..)).markup (R := R)
    have hm := menuTail_markup (R := R) fun x hx => h x (List.mem_cons_of_mem _ hx)
    unfold renderMenu
    rw [markup_iff, scan_append, scan_append, scan_append, scan_append,
      scan_rules (t := "<span class=\"menuseq\"><b class=\"menu\">".toList) (s' := ⟨.text, ["b".toList, "span".toList]⟩) (by decide +kernel),
      Option.bind_some, ht.scan, Option.bind_some,
      scan_rules (t := "</b>".toList) (s' := ⟨.text, ["span".toList]⟩) (by decide +kernel), Option.bind_some, hm.scan, Option.bind_some]
    exact scan_rules (by decide +kernel)

include hL in
theorem renderCallout_sat {n : Int} : Sat R images (Markup R) (renderCallout L n) :=
  exec_sat hL calloutRef_ok (by fits) holds_nil

end
end Verif.Rend
