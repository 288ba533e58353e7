import Verif.Proofs.ContentSays
/-!
Inline elements say their text (C52).
-/
namespace Verif.Rend
open Verif (Text)

/-- Whether paragraphs are embedded. -/
def emb (w : Bool) (l : Nat) : Bool := w || decide (0 < l)

/-- The elements say their text. -/
def Good (src : Bool) (re : El → M Text) : Prop := ∀ w l e, Keep w l (InOrder (pieces src (emb w l) e)) (re e)

/-- So they do as plain text. -/
def GoodPlain (pl : Bool → El → Except Err Text) : Prop := ∀ b e t, pl b e = .ok t → InOrder (plainPieces e) t

/-- Highlighting does not break the text. -/
def Highlights (L : Lib) : Prop := ∀ a b i t u, L.highlight a b i t = some u → ∀ ps, InOrderBy Raw ps t → InOrder ps u

theorem attrPieces_get (src e : Bool) (k : String) : ∀ a : List (String × AV),
    attrPieces src e k a = (match AMap.get a k with | some v => valuePieces src e v | none => [])
  | [] => rfl
  | p :: m => by
    obtain ⟨k', v⟩ := p
    rw [AMap.get_cons]
    unfold attrPieces
    dsimp only
    split
    · rfl
    · exact attrPieces_get src e k m

theorem plainText_get : ∀ a : List (String × AV),
    plainText a = (match AMap.get a "text" with | some v => plainValue v | none => [])
  | [] => rfl
  | p :: m => by
    obtain ⟨k', v⟩ := p
    rw [AMap.get_cons]
    unfold plainText
    dsimp only
    split
    · rfl
    · exact plainText_get m

theorem getStr_eq {a : Attrs} {k : String} {t : Text} (h : getStr a k = some t) : AMap.get a k = some (.str t) := by
  unfold getStr at h
  split at h
  · rename_i e; cases h; exact e
  · cases h

theorem optTexts_getStrD {sprint : AV → Text} {a : Attrs} {k : String} {d : Text} :
    InOrder (optTexts (getStr a k)) (getStrD sprint a k d) := by
  cases h : getStr a k with
  | none => exact .nil
  | some t =>
    have := getStr_eq h
    unfold getStrD
    rw [this]
    exact shows_texts (Img.refl t)

theorem optTexts_getD {a : Attrs} {k : String} : InOrder (optTexts (getStr a k)) ((getStr a k).getD []) := by
  cases h : getStr a k with
  | none => exact .nil
  | some t => exact shows_texts (Img.refl t)

section
variable {L : Lib} {re : El → M Text} {pl : Bool → El → Except Err Text} {src : Bool} {w : Bool} {l : Nat}

/-! ### Plain text -/

theorem plainInline_says {f : El → Except Err Text} (hf : ∀ e t, f e = .ok t → InOrder (plainPieces e) t) :
    ∀ {els : List El} {t : Text}, plainInline f els = .ok t → InOrder (plainPiecesAll els) t
  | [], t, h => .nil
  | e :: els, t, h => by
    have h : (f e).bind (fun t => (plainInline f els).bind (fun u =>
      .ok ((if els.isEmpty && e.isStr then trimRight (· == ' ') t else t) ++ u))) = .ok t := h
    cases h1 : f e with
    | error x => rw [h1] at h; cases h
    | ok t1 =>
      rw [h1] at h
      have h : (plainInline f els).bind (fun u =>
        .ok ((if els.isEmpty && e.isStr then trimRight (· == ' ') t1 else t1) ++ u)) = .ok t := h
      cases h2 : plainInline f els with
      | error x => rw [h2] at h; cases h
      | ok u =>
        rw [h2] at h
        cases h
        refine InOrderBy.append ?_ (plainInline_says hf h2)
        split
        · exact (hf e t1 h1).ws shows_noSpace (ws_trimRight space_sp _)
        · exact hf e t1 h1

theorem plainAll_says {f : El → Except Err Text} (hf : ∀ e t, f e = .ok t → InOrder (plainPieces e) t) :
    ∀ {els : List El} {t : Text}, plainAll f els = .ok t → InOrder (plainPiecesAll els) t
  | [], t, h => .nil
  | e :: els, t, h => by
    have h : (f e).bind (fun t => (plainAll f els).bind (fun u => .ok (t ++ u))) = .ok t := h
    cases h1 : f e with
    | error x => rw [h1] at h; cases h
    | ok t1 =>
      rw [h1] at h
      have h : (plainAll f els).bind (fun u => .ok (t1 ++ u)) = .ok t := h
      cases h2 : plainAll f els with
      | error x => rw [h2] at h; cases h
      | ok u =>
        rw [h2] at h
        cases h
        exact InOrderBy.append (hf e t1 h1) (plainAll_says hf h2)

theorem plain_says (esc : Option (Text → Text)) (hesc : ∀ f, esc = some f → ∀ n, InOrder (texts n) (f n)) :
    ∀ (n : Nat) (e : El) (t : Text), plain L esc n e = .ok t → InOrder (plainPieces e) t
  | 0, _, _, h => nomatch h
  | n + 1, e, t, h => by
    have ih := plain_says esc hesc n
    unfold plain at h
    cases e with
    | str u => cases h; exact shows_texts (Img.refl _)
    | special name =>
      cases esc with
      | none => cases h
      | some f => cases h; exact hesc f rfl name
    | symbol name =>
      cases h
      unfold plainPieces
      split
      · rename_i hs
        obtain ⟨v, hv⟩ := Option.isSome_iff_exists.mp hs
        rw [hv]
        exact InOrderBy.one ⟨hv, symbols_space _ (mem_of_lookup hv)⟩
      · exact .nil
    | quoted k a els => exact plainInline_says ih h
    | passthrough sp els => exact plainInline_says ih h
    | link loc a =>
      dsimp only at h
      show InOrder (plainText a) t
      rw [plainText_get]
      cases ha : AMap.get a "text" with
      | none => exact .nil
      | some v =>
        rw [ha] at h
        cases v with
        | str u => cases h; exact shows_texts (Img.refl _)
        | els els => exact plainInline_says ih h
        | _ => exact .nil
    | inlineImage loc a => cases h; exact optTexts_getStrD
    | icon cls a => cases h; exact optTexts_getStrD
    | _ => exact .nil

theorem goodPlain (n : Nat) : GoodPlain (fun b => plain L (if b then some Escape.escapeString else none) n) := by
  intro b e t h
  refine plain_says _ ?_ n e t h
  intro f hf m
  split at hf
  · cases hf; exact shows_texts (img_escape m)
  · cases hf

/-! ### Sequences -/

theorem renderAll_says (hre : Good src re) : ∀ els : List El, Keep w l (InOrder (piecesAll src (emb w l) els)) (renderAll re els)
  | [] => Keep.pure .nil
  | e :: els => Out.bind (hre w l e) fun _ h1 => Out.bind (renderAll_says hre els) fun _ h2 => Keep.pure (h1.append h2)

theorem renderInline_says (hre : Good src re) : ∀ els : List El, Keep w l (InOrder (piecesAll src (emb w l) els)) (renderInline re els)
  | [] => Keep.pure .nil
  | e :: els => by
    unfold renderInline
    refine Out.bind (hre w l e) fun t h1 => Out.bind (renderInline_says hre els) fun _ h2 => Keep.pure ?_
    refine InOrderBy.append ?_ h2
    split
    · exact h1.ws shows_noSpace (ws_trimRight space_sp _)
    · exact h1

theorem renderListElements_says (hre : Good src re) : ∀ els : List El,
    Keep w l (InOrder (firstPieces src (emb w l) els)) (renderListElements re els)
  | [] => Keep.pure .nil
  | e :: els => by
    unfold renderListElements
    refine Out.bind (P := fun _ => True) (w' := w) (l' := l + 1) (Out.modify fun c hc => ⟨hc.1, by show c.withinList + 1 = _; rw [hc.2]⟩) fun _ _ => ?_
    refine Out.bind (hre w (l + 1) e) fun t h1 => ?_
    refine Out.bind (P := fun _ => True) (w' := w) (l' := l) (Out.modify fun c hc => ⟨hc.1, by show c.withinList - 1 = _; rw [hc.2]; rfl⟩) fun _ _ => ?_
    refine Out.bind (renderAll_says hre els) fun _ h2 => Keep.pure ?_
    have : emb w (l + 1) = true := by unfold emb; simp
    rw [this] at h1
    exact h1.append h2

/-! ### Attributes -/

theorem elementTitle_says (hre : Good src re) (a : Attrs) :
    Keep w l (InOrder (attrPieces src (emb w l) "title" a)) (elementTitle re a) := by
  rw [attrPieces_get]
  unfold elementTitle
  cases AMap.get a "title" with
  | none => exact Keep.pure .nil
  | some v =>
    cases v with
    | str t => exact Keep.pure (shows_texts (Img.refl t))
    | els els => exact renderAll_says hre els
    | _ => exact Out.error

theorem elementRole_any (hre : Good src re) (v : AV) : Keep w l (fun _ => True) (elementRole re v) := by
  cases v with
  | str t => exact Keep.pure trivial
  | els els => exact (renderAll_says hre els).mono fun _ _ => trivial
  | _ => exact Out.error

theorem rolesAll_any (hre : Good src re) : ∀ vs : List AV, Keep w l (fun _ => True) (rolesAll re vs)
  | [] => Keep.pure trivial
  | v :: vs => Out.bind (elementRole_any hre v) fun _ _ => Out.bind (rolesAll_any hre vs) fun _ _ => Keep.pure trivial

theorem rolesOf_any (hre : Good src re) (a : Attrs) : Keep w l (fun _ => True) (rolesOf re a) := by
  unfold rolesOf
  split
  · exact rolesAll_any hre _
  · exact Keep.pure trivial

theorem elementRoles_any (hre : Good src re) (a : Attrs) : Keep w l (fun _ => True) (elementRoles re a) :=
  Out.bind (rolesOf_any hre a) fun _ _ => Keep.pure trivial

theorem imageRoles_any (hre : Good src re) (a : Attrs) : Keep w l (fun _ => True) (imageRoles re a) :=
  Out.bind (rolesOf_any hre a) fun _ _ => Keep.pure trivial

/-! ### Inline elements -/

theorem renderStr_says (t : Text) : Keep w l (InOrder (texts t)) (renderStr t) :=
  Out.bind Keep.docAttrs fun _ _ => Keep.pure (shows_texts (img_string _ t))

theorem renderSpecial_says (n : Text) : Keep w l (InOrder (texts n)) (renderSpecial n) := by
  unfold renderSpecial
  split
  · rename_i e; subst e; exact Keep.pure (shows_texts (img_escape _))
  · split
    · rename_i e; subst e; exact Keep.pure (shows_texts (img_escape _))
    · split
      · rename_i e; subst e; exact Keep.pure (shows_texts (img_escape _))
      · exact Out.error

theorem renderSymbol_says (n : Text) : Keep w l (InOrder [.symbol n]) (renderSymbol n) := by
  unfold renderSymbol
  split
  · rename_i v hv
    exact Keep.pure (InOrderBy.one ⟨hv, symbols_space _ (mem_of_lookup hv)⟩)
  · exact Out.error

theorem renderQuoted_says (hL : Standard L) (hre : Good src re) (k : QuotedKind) (a : Attrs) (els : List El) :
    Keep w l (InOrder (piecesAll src (emb w l) els)) (renderQuoted L re k a els) := by
  unfold renderQuoted
  refine Out.bind (renderAll_says hre els) fun t h1 => Out.bind (elementRoles_any hre a) fun _ _ => ?_
  cases k
  all_goals first
    | exact Out.error
    | exact exec1 hL (k1 := "Content") (by decide +kernel) rfl h1

theorem passthroughAll_says (hre : Good src re) : ∀ els : List El,
    Keep w l (InOrder (piecesAll src (emb w l) els)) (passthroughAll re els)
  | [] => Keep.pure .nil
  | e :: els => by
    have ih := passthroughAll_says hre els
    cases e with
    | str t => exact Out.bind ih fun _ h2 => Keep.pure ((shows_texts (Img.refl t)).append h2)
    | _ => exact Out.bind (hre w l _) fun _ h1 => Out.bind ih fun _ h2 => Keep.pure (h1.append h2)

theorem passthroughAll_raw (hre : Good src re) : ∀ els : List El,
    Keep w l (InOrderBy Raw (strings els)) (passthroughAll re els)
  | [] => Keep.pure .nil
  | e :: els => by
    have ih := passthroughAll_raw hre els
    cases e with
    | str t => exact Out.bind ih fun _ h2 => Keep.pure ((raw_texts t).append h2)
    | _ => exact Out.bind (hre w l _) fun _ _ => Out.bind ih fun _ h2 => Keep.pure (h2.before _)

theorem passthroughContent_says (hre : Good src re) (els : List El) :
    Keep w l (InOrder (piecesAll src (emb w l) els)) (passthroughContent re els) :=
  Out.bind (passthroughAll_says hre els) fun _ h => Keep.pure (h.ws shows_noSpace (ws_trim space_nl _))

theorem renderPassthrough_says (hre : Good src re) (sp : Bool) (els : List El) :
    Keep w l (InOrder (if sp then strings els else piecesAll src (emb w l) els)) (renderPassthrough re sp els) := by
  unfold renderPassthrough
  cases sp with
  | false => exact Out.bind (passthroughContent_says hre els) fun _ h => Keep.pure h
  | true =>
    refine Out.bind (P := InOrderBy Raw (strings els)) ?_ fun _ h => Keep.pure (h.img (img_htmlEscape _))
    exact Out.bind (passthroughAll_raw hre els) fun _ h => Keep.pure (h.ws raw_noSpace (ws_trim space_nl _))

theorem linkText_says (hre : Good src re) (loc : Option Loc) (a : Attrs) (d r : Text) :
    Keep w l (fun p : Text × Text => InOrder (attrPieces src (emb w l) "text" a) p.1) (linkText re loc a d r) := by
  rw [attrPieces_get]
  unfold linkText
  cases AMap.get a "text" with
  | none => exact Keep.pure .nil
  | some v =>
    cases v with
    | str t => exact Keep.pure (shows_texts (img_escape t))
    | els els => exact Out.bind (renderInline_says hre els) fun _ h => Keep.pure h
    | _ => exact Keep.pure .nil

theorem renderLink_says (hL : Standard L) (hre : Good src re) (loc : Option Loc) (a : Attrs) :
    Keep w l (InOrder (attrPieces src (emb w l) "text" a)) (renderLink L re loc a) := by
  unfold renderLink
  refine Out.bind Keep.get fun _ _ => Out.bind (elementRoles_any hre a) fun _ _ => Out.bind (linkText_says hre _ _ _ _) fun _ h => ?_
  exact exec1 hL (k1 := "Text") (by decide +kernel) rfl h

theorem xrefLabel_any (hre : Good src re) : ∀ els : List El, Keep w l (fun _ => True) (xrefLabel re pl els)
  | [] => Keep.pure trivial
  | e :: els => by
    have ih := xrefLabel_any hre els
    cases e with
    | link loc a => exact Out.bind (Keep.lift (P := fun _ => True) fun _ _ => trivial) fun _ _ => Out.bind ih fun _ _ => Keep.pure trivial
    | _ => exact Out.bind (hre w l _) fun _ _ => Out.bind ih fun _ _ => Keep.pure trivial

theorem refLabel_any (hre : Good src re) (id : Text) (v : Option AV) : Keep w l (fun _ => True) (refLabel re pl id v) := by
  unfold refLabel
  split
  · exact Keep.pure trivial
  · exact xrefLabel_any hre _
  · exact Out.error
  · exact Keep.pure trivial

theorem renderXref_says (hL : Standard L) (hre : Good src re) (id label : AV) :
    Keep w l (InOrder (match label with | .str t => texts t | _ => [])) (renderXref L re pl id label) := by
  cases id with
  | str i =>
    unfold renderXref
    dsimp only
    refine Out.bind Keep.get fun c _ => ?_
    cases label with
    | str t => exact Out.bind (Keep.pure (shows_texts (Img.refl t))) fun _ h => exec1 hL (k1 := "Label") (by decide +kernel) rfl h
    | _ => exact Out.bind (refLabel_any hre _ _) fun _ _ => exec_any.mono fun _ _ => .nil
  | _ => exact Out.error

theorem extLabel_says (hre : Good src re) (a : Attrs) (d : Text) :
    Keep w l (InOrder (attrPieces src (emb w l) "xrefLabel" a)) (extLabel re a d) := by
  rw [attrPieces_get]
  unfold extLabel
  cases AMap.get a "xrefLabel" with
  | none => exact Keep.pure .nil
  | some v =>
    cases v with
    | str t => exact Keep.pure (shows_texts (Img.refl t))
    | els els => exact renderInline_says hre els
    | _ => exact Keep.pure .nil

theorem renderExtXref_says (hL : Standard L) (hre : Good src re) (loc : Option Loc) (a : Attrs) :
    Keep w l (InOrder (attrPieces src (emb w l) "xrefLabel" a)) (renderExtXref L re loc a) := by
  unfold renderExtXref
  refine Out.bind Keep.get fun _ _ => Out.bind (extLabel_says hre a _) fun _ h => ?_
  exact exec1 hL (k1 := "Label") (by decide +kernel) rfl h

theorem setPathPrefix_any (p : Text) (loc : Loc) : Keep w l (fun _ => True) (setPathPrefix L p loc) := by
  unfold setPathPrefix
  split
  · exact Keep.pure trivial
  · refine Out.bind Keep.get fun c _ => ?_
    split
    · exact Out.modify fun _ h => h
    · exact Keep.pure trivial

theorem imageSrc_any (loc : Loc) : Keep w l (fun _ => True) (imageSrc L loc) := by
  unfold imageSrc
  refine Out.bind Keep.docAttrs fun _ _ => Out.bind (setPathPrefix_any _ _) fun _ _ => Out.bind Keep.get fun _ _ => Keep.pure trivial

theorem imageAlt_says (a : Attrs) (s : Text) : Keep w l (InOrder (optTexts (getStr a "alt"))) (imageAlt L a s) := by
  unfold imageAlt
  split
  · rename_i t h; rw [h]; exact Keep.pure (shows_texts (Img.refl t))
  · rename_i h
    rw [h]
    split
    · exact Keep.pure .nil
    · exact Out.error

theorem caption_any (k : Captions.Kind) (a : Attrs) : Keep w l (fun _ => True) (caption k a) := by
  unfold caption
  refine Out.bind Keep.get fun c _ => ?_
  dsimp only
  split
  · exact Out.bind (P := fun _ => True) (Out.modify fun _ h => h) fun _ _ => Keep.pure trivial
  · exact Keep.pure trivial

theorem optCaption_any (b : Bool) (k : Captions.Kind) (a : Attrs) : Keep w l (fun _ => True) (optCaption b k a) := by
  unfold optCaption
  split
  · exact caption_any k a
  · exact Keep.pure trivial

theorem renderImageBlock_says (hL : Standard L) (hre : Good src re) (loc : Loc) (a : Attrs) :
    Keep w l (InOrder (optTexts (getStr a "alt") ++ attrPieces src (emb w l) "title" a)) (renderImageBlock L re loc a) := by
  unfold renderImageBlock
  refine Out.bind (elementTitle_says hre a) fun _ h1 => Out.bind (optCaption_any _ _ _) fun _ _ =>
    Out.bind (imageRoles_any hre a) fun _ _ => Out.bind (imageSrc_any loc) fun _ _ => Out.bind (imageAlt_says a _) fun _ h2 => ?_
  exact exec2 hL (k1 := "Alt") (k2 := "Title") (by decide +kernel) (by decide) rfl rfl h2 h1

theorem renderInlineImage_says (hL : Standard L) (hre : Good src re) (loc : Loc) (a : Attrs) :
    Keep w l (InOrder (optTexts (getStr a "alt") ++ attrPieces src (emb w l) "title" a)) (renderInlineImage L re loc a) := by
  unfold renderInlineImage
  refine Out.bind (imageRoles_any hre a) fun _ _ => Out.bind (imageSrc_any loc) fun _ _ => Out.bind (imageAlt_says a _) fun _ h2 =>
    Out.bind (elementTitle_says hre a) fun _ h1 => ?_
  exact exec2 hL (k1 := "Alt") (k2 := "Title") (by decide +kernel) (by decide) rfl rfl h2 h1

theorem renderIcon_any (cls : Text) (a : Attrs) (adm : Bool) : Keep w l (fun _ => True) (renderIcon L cls a adm) := by
  unfold renderIcon
  refine Out.bind Keep.docAttrs fun _ _ => ?_
  dsimp only
  split
  · exact exec_any
  · split
    · exact exec_any
    · split
      · exact exec_any
      · exact Out.error

theorem renderInlineIcon_any (cls : Text) (a : Attrs) : Keep w l (fun _ => True) (renderInlineIcon L cls a) :=
  Out.bind (renderIcon_any cls a false) fun _ _ => exec_any

theorem renderButton_says (hL : Standard L) (a : Attrs) : Keep w l (InOrder (optTexts (getStr a "label"))) (renderButton L a) := by
  unfold renderButton
  refine exec1 hL (k1 := ".") (by decide +kernel) rfl ?_
  cases h : getStr a "label" with
  | none => exact .nil
  | some t => rw [getStr_eq h]; exact shows_texts (Img.refl t)

theorem wrapped (a b t : Text) : InOrder (texts t) (a ++ t ++ b) := ((shows_texts (Img.refl t)).before a).after b

theorem menuTail_says : ∀ p : List Text, InOrder (p.flatMap texts) (menuTail p)
  | [] => .nil
  | [t] => by
    rw [List.flatMap_cons, List.flatMap_nil, List.append_nil]
    unfold menuTail
    exact wrapped _ _ t
  | t :: u :: p => by
    have ih := menuTail_says (u :: p)
    rw [List.flatMap_cons]
    conv => arg 2; unfold menuTail
    exact (wrapped _ _ t).append ih

theorem renderMenu_says (p : List Text) : InOrder (p.flatMap texts) (renderMenu p) := by
  unfold renderMenu
  split
  · exact .nil
  · rw [List.flatMap_cons, List.flatMap_nil, List.append_nil]
    exact wrapped _ _ _
  · rw [List.flatMap_cons]
    exact ((wrapped _ _ _).append (menuTail_says _)).after _

end

end Verif.Rend
