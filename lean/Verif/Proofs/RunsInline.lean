import Verif.Proofs.Runs
/-!
The rendering of inline elements runs (C53, C54, C55).
-/
namespace Verif.Rend
open Verif.Tmpl (Tm Templates html5 xhtml5)
open Verif (Text)

/-- What holds of the context throughout: the references are those of the document, and the attributes have some property. -/
def Held (d : Doc) (A : String → AV → Prop) (c : Ctx) : Prop :=
  c.refs = d.refs ∧ ∀ k v, AMap.get c.attrs k = some v → A k v

theorem mem_attrEls {a : List (String × AV)} {k : String} {v : AV} (h : AMap.get a k = some v) {e : El} (he : e ∈ valueEls v) :
    e ∈ attrEls a := List.mem_flatMap.mpr ⟨(k, v), AMap.get_eq_some_mem h, he⟩

section
variable {E : Err → Prop} {d : Doc} {A : String → AV → Prop} {L : Lib} {re : El → M Text} {pl : Bool → El → Except Err Text}

theorem docAttrs_run : Runs E (Held d A) (fun a => ∀ k v, AMap.get a k = some v → A k v) docAttrs :=
  Runs.get.bind fun _ hc => Runs.pure hc.2

theorem modify_run {f : Ctx → Ctx} (h1 : ∀ c, (f c).refs = c.refs) (h2 : ∀ c, (f c).attrs = c.attrs) :
    Run E (Held d A) (M.modify f) := Run.modify fun c hc => by
  unfold Held at *
  rw [h1, h2]
  exact hc

theorem inBlock_run {m : M Text} (h : Run E (Held d A) m) : Run E (Held d A) (inBlock m) := by
  unfold inBlock
  refine Runs.bind Runs.get fun c _ => ?_
  refine Runs.bind (modify_run (fun _ => rfl) fun _ => rfl) fun _ _ => ?_
  refine Runs.bind h fun t _ => ?_
  exact Runs.bind (modify_run (fun _ => rfl) fun _ => rfl) fun _ _ => Run.pure

theorem renderAll_run : ∀ {l : List El}, (∀ e ∈ l, Run E (Held d A) (re e)) → Run E (Held d A) (renderAll re l)
  | [], _ => Run.pure
  | e :: l, h => by
    unfold renderAll
    refine Runs.bind (h e (List.mem_cons_self ..)) fun _ _ => ?_
    exact Runs.bind (renderAll_run fun x hx => h x (List.mem_cons_of_mem _ hx)) fun _ _ => Run.pure

theorem renderListElements_run {l : List El} (h : ∀ e ∈ l, Run E (Held d A) (re e)) : Run E (Held d A) (renderListElements re l) := by
  cases l with
  | nil => exact Run.pure
  | cons e l =>
    unfold renderListElements
    refine Runs.bind (modify_run (fun _ => rfl) fun _ => rfl) fun _ _ => ?_
    refine Runs.bind (h e (List.mem_cons_self ..)) fun _ _ => ?_
    refine Runs.bind (modify_run (fun _ => rfl) fun _ => rfl) fun _ _ => ?_
    exact Runs.bind (renderAll_run fun x hx => h x (List.mem_cons_of_mem _ hx)) fun _ _ => Run.pure

theorem renderInline_run : ∀ {l : List El}, (∀ e ∈ l, Run E (Held d A) (re e)) → Run E (Held d A) (renderInline re l)
  | [], _ => Run.pure
  | e :: l, h => by
    unfold renderInline
    refine Runs.bind (h e (List.mem_cons_self ..)) fun _ _ => ?_
    dsimp only
    exact Runs.bind (renderInline_run fun x hx => h x (List.mem_cons_of_mem _ hx)) fun _ _ => Run.pure

theorem passthroughAll_run : ∀ {l : List El}, (∀ e ∈ l, Run E (Held d A) (re e)) → Run E (Held d A) (passthroughAll re l)
  | [], _ => Run.pure
  | e :: l, h => by
    have ih := passthroughAll_run (l := l) fun x hx => h x (List.mem_cons_of_mem _ hx)
    unfold passthroughAll
    split
    · rename_i h; cases h
    · rename_i h; cases h
      exact Runs.bind ih fun _ _ => Run.pure
    · rename_i h'; cases h'
      refine Runs.bind (h _ (List.mem_cons_self ..)) fun _ _ => ?_
      exact Runs.bind ih fun _ _ => Run.pure

theorem passthroughContent_run {l : List El} (h : ∀ e ∈ l, Run E (Held d A) (re e)) : Run E (Held d A) (passthroughContent re l) :=
  Runs.bind (passthroughAll_run h) fun _ _ => Run.pure

theorem renderPassthrough_run {sp : Bool} {l : List El} (h : ∀ e ∈ l, Run E (Held d A) (re e)) :
    Run E (Held d A) (renderPassthrough re sp l) := Runs.bind (passthroughContent_run h) fun _ _ => Run.pure

theorem elementRole_run {v : AV} (hv : E .fail ∨ Textual v) (h : ∀ e ∈ roleEls v, Run E (Held d A) (re e)) :
    Run E (Held d A) (elementRole re v) := by
  unfold elementRole
  split
  · exact Run.pure
  · exact renderAll_run h
  · refine Runs.error (hv.resolve_right fun ht => ?_)
    cases v <;> simp_all [Textual]

theorem rolesAll_run : ∀ {l : List AV}, (∀ r ∈ l, E .fail ∨ Textual r) → (∀ r ∈ l, ∀ e ∈ roleEls r, Run E (Held d A) (re e)) →
    Run E (Held d A) (rolesAll re l)
  | [], _, _ => Run.pure
  | v :: l, h, hr => by
    unfold rolesAll
    refine Runs.bind (elementRole_run (h v (List.mem_cons_self ..)) (hr v (List.mem_cons_self ..))) fun _ _ => ?_
    exact Runs.bind (rolesAll_run (fun r hx => h r (List.mem_cons_of_mem _ hx)) fun r hx => hr r (List.mem_cons_of_mem _ hx)) fun _ _ => Run.pure

theorem rolesOf_run {a : Attrs} (h : E .fail ∨ RolesOk a) (ha : ∀ e ∈ attrEls a, Run E (Held d A) (re e)) :
    Run E (Held d A) (rolesOf re a) := by
  unfold rolesOf
  split
  · rename_i l hl
    refine rolesAll_run (fun r hr => h.imp id fun h => h l hl r hr) fun r hr e he => ha e ?_
    exact mem_attrEls hl (List.mem_flatMap.mpr ⟨r, hr, he⟩)
  · exact Run.pure

theorem elementRoles_run {a : Attrs} (h : E .fail ∨ RolesOk a) (ha : ∀ e ∈ attrEls a, Run E (Held d A) (re e)) :
    Run E (Held d A) (elementRoles re a) := Runs.bind (rolesOf_run h ha) fun _ _ => Run.pure

theorem imageRoles_run {a : Attrs} (h : E .fail ∨ RolesOk a) (ha : ∀ e ∈ attrEls a, Run E (Held d A) (re e)) :
    Run E (Held d A) (imageRoles re a) := Runs.bind (rolesOf_run h ha) fun _ _ => Run.pure

theorem elementTitle_run {a : Attrs} (h : E .fail ∨ TitleOk a) (ha : ∀ e ∈ attrEls a, Run E (Held d A) (re e)) :
    Run E (Held d A) (elementTitle re a) := by
  unfold elementTitle
  split
  · exact Run.pure
  · exact Run.pure
  · rename_i l hl
    exact renderAll_run fun e he => ha e (mem_attrEls hl he)
  · rename_i v h1 h2 hv
    refine Runs.error (h.resolve_right fun ht => ?_)
    have := ht v hv
    cases v <;> simp_all [Textual]

theorem renderSpecial_run {n : Text} (h : E .fail ∨ n ∈ ["&".toList, "<".toList, ">".toList]) : Run E (Held d A) (renderSpecial n) := by
  unfold renderSpecial
  split
  · exact Run.pure
  split
  · exact Run.pure
  split
  · exact Run.pure
  · refine Runs.error (h.resolve_right fun hm => ?_)
    simp only [List.mem_cons, List.not_mem_nil, or_false] at hm
    rcases hm with h | h | h <;> contradiction

theorem renderSymbol_run {n : Text} (h : E .fail ∨ (symbols.lookup n).isSome) : Run E (Held d A) (renderSymbol n) := by
  unfold renderSymbol
  cases hs : symbols.lookup n with
  | some t => exact Run.pure
  | none => exact Runs.error (h.resolve_right fun hm => by rw [hs] at hm; cases hm)

theorem renderStr_run {t : Text} : Run E (Held d A) (renderStr t) := Runs.bind docAttrs_run fun _ _ => Run.pure

theorem renderQuoted_run (hL : E .fail ∨ Standard L) {k : QuotedKind} {a : Attrs} {els : List El}
    (h : E .fail ∨ k ≠ .other ∧ RolesOk a) (ha : ∀ e ∈ attrEls a, Run E (Held d A) (re e)) (he : ∀ e ∈ els, Run E (Held d A) (re e)) :
    Run E (Held d A) (renderQuoted L re k a els) := by
  unfold renderQuoted
  refine Runs.bind (renderAll_run he) fun _ _ => ?_
  refine Runs.bind (elementRoles_run (h.imp id And.right) ha) fun _ _ => ?_
  cases k with
  | other => exact Runs.error (h.resolve_right fun h => h.1 rfl)
  | bold => exact exec_runs hL (by filled)
  | italic => exact exec_runs hL (by filled)
  | marked => exact exec_runs hL (by filled)
  | monospace => exact exec_runs hL (by filled)
  | subscript => exact exec_runs hL (by filled)
  | superscript => exact exec_runs hL (by filled)

theorem linkText_run {loc : Option Loc} {a : Attrs} {display roles : Text} (ha : ∀ e ∈ attrEls a, Run E (Held d A) (re e)) :
    Run E (Held d A) (linkText re loc a display roles) := by
  unfold linkText
  split
  · exact Run.pure
  · rename_i l hl
    exact Runs.bind (renderInline_run fun e he => ha e (mem_attrEls hl he)) fun _ _ => Run.pure
  · exact Run.pure
  · exact Run.pure

theorem renderLink_run (hL : E .fail ∨ Standard L) {loc : Option Loc} {a : Attrs} (h : E .fail ∨ RolesOk a)
    (ha : ∀ e ∈ attrEls a, Run E (Held d A) (re e)) : Run E (Held d A) (renderLink L re loc a) := by
  unfold renderLink
  refine Runs.bind Runs.get fun c _ => ?_
  refine Runs.bind (elementRoles_run h ha) fun _ _ => ?_
  refine Runs.bind (linkText_run ha) fun _ _ => ?_
  exact exec_runs hL (by filled)

theorem xrefLabel_run : ∀ {l : List El}, (∀ e ∈ l, Run E (Held d A) (re e)) →
    (∀ loc a, El.link loc a ∈ l → ∀ x, pl true (.link loc a) = .error x → E x) → Run E (Held d A) (xrefLabel re pl l)
  | [], _, _ => Run.pure
  | e :: l, h, hp => by
    have ih := xrefLabel_run (l := l) (fun x hx => h x (List.mem_cons_of_mem _ hx)) fun loc a hx => hp loc a (List.mem_cons_of_mem _ hx)
    unfold xrefLabel
    split
    · rename_i h; cases h
    · rename_i h'; cases h'
      refine Runs.bind (Runs.lift (P := fun _ => True) (hp _ _ (List.mem_cons_self ..)) fun _ _ => trivial) fun _ _ => ?_
      exact Runs.bind ih fun _ _ => Run.pure
    · rename_i h'; cases h'
      refine Runs.bind (h _ (List.mem_cons_self ..)) fun _ _ => ?_
      exact Runs.bind ih fun _ _ => Run.pure

theorem refLabel_run {xid : Text} {v : Option AV} (hv : ∀ x, v = some x → E .fail ∨ RefValueOk x)
    (he : ∀ l, v = some (.els l) → ∀ e ∈ l, Run E (Held d A) (re e))
    (hp : ∀ l, v = some (.els l) → ∀ loc a, El.link loc a ∈ l → ∀ x, pl true (.link loc a) = .error x → E x) :
    Run E (Held d A) (refLabel re pl xid v) := by
  unfold refLabel
  split
  · exact Run.pure
  · exact xrefLabel_run (he _ rfl) (hp _ rfl)
  · rename_i x h1 h2
    refine Runs.error ((hv x rfl).resolve_right fun h => ?_)
    cases x <;> simp_all [RefValueOk]
  · exact Run.pure

theorem renderXref_run (hL : E .fail ∨ Standard L) {id label : AV}
    (h : E .fail ∨ ∃ t, id = .str t ∧ ((∃ u, label = .str u) ∨ ∀ v, d.refs.lookup t = some v → RefValueOk v))
    (he : ∀ t, id = .str t → (∀ u, label ≠ .str u) → ∀ l, d.refs.lookup t = some (.els l) → ∀ e ∈ l, Run E (Held d A) (re e))
    (hp : ∀ t, id = .str t → (∀ u, label ≠ .str u) → ∀ l, d.refs.lookup t = some (.els l) → ∀ loc a, El.link loc a ∈ l →
      ∀ x, pl true (.link loc a) = .error x → E x) :
    Run E (Held d A) (renderXref L re pl id label) := by
  unfold renderXref
  split
  · rename_i t
    refine Runs.bind Runs.get fun c hc => ?_
    refine Runs.bind (P := fun _ => True) ?_ fun _ _ => exec_runs hL (by filled)
    split
    · exact Run.pure
    · rename_i hl
      rw [hc.1]
      refine refLabel_run (fun x hx => ?_) (he t rfl fun u hu => hl u hu) (hp t rfl fun u hu => hl u hu)
      refine h.imp id ?_
      rintro ⟨t', e, h⟩
      cases e
      rcases h with ⟨u, rfl⟩ | h
      · exact absurd rfl (hl u)
      · exact h x hx
  · rename_i hn
    refine Runs.error (h.resolve_right ?_)
    rintro ⟨t, rfl, _⟩
    exact hn t rfl

theorem extLabel_run {a : Attrs} {display : Text} (ha : ∀ e ∈ attrEls a, Run E (Held d A) (re e)) :
    Run E (Held d A) (extLabel re a display) := by
  unfold extLabel
  split
  · exact Run.pure
  · rename_i l hl
    exact renderInline_run fun e he => ha e (mem_attrEls hl he)
  · exact Run.pure

theorem renderExtXref_run (hL : E .fail ∨ Standard L) {loc : Option Loc} {a : Attrs}
    (ha : ∀ e ∈ attrEls a, Run E (Held d A) (re e)) : Run E (Held d A) (renderExtXref L re loc a) := by
  unfold renderExtXref
  refine Runs.bind Runs.get fun c _ => ?_
  refine Runs.bind (extLabel_run ha) fun _ _ => ?_
  exact exec_runs hL (by filled)

theorem renderFootnoteRef_run (hL : E .fail ∨ Standard L) {id : Int} {ref : Text} {dup : Bool} :
    Run E (Held d A) (renderFootnoteRef L id ref dup) := by
  unfold renderFootnoteRef
  split
  · exact exec_runs hL (by filled)
  split
  · exact exec_runs hL (by filled)
  · exact exec_runs hL (by filled)

theorem setPathPrefix_run {p : Text} {l : Loc} : Run E (Held d A) (setPathPrefix L p l) := by
  unfold setPathPrefix
  split
  · exact Run.pure
  · refine Runs.bind Runs.get fun c _ => ?_
    split
    · exact modify_run (fun _ => rfl) fun _ => rfl
    · exact Run.pure

theorem imageSrc_run {l : Loc} : Runs E (Held d A) (fun t => ∃ pre, t = locString L pre l ∨ t = L.dataUri (locString L pre l))
    (imageSrc L l) := by
  unfold imageSrc
  refine Runs.bind docAttrs_run fun _ _ => ?_
  refine Runs.bind setPathPrefix_run fun _ _ => ?_
  refine Runs.bind Runs.get fun c _ => ?_
  refine Runs.pure ⟨prefixOf c l, ?_⟩
  split
  · exact .inr rfl
  · exact .inl rfl

theorem imageAlt_run {l : Loc} {a : Attrs} {src : Text} (h : E .fail ∨ AltOk L l a)
    (hs : ∃ pre, src = locString L pre l ∨ src = L.dataUri (locString L pre l)) : Run E (Held d A) (imageAlt L a src) := by
  unfold imageAlt
  cases ha : getStr a "alt" with
  | some t => exact Run.pure
  | none =>
    dsimp only
    cases hx : L.altOf src with
    | some t => exact Run.pure
    | none =>
      refine Runs.error (h.resolve_right ?_)
      rintro (h | h)
      · rw [ha] at h; cases h
      · obtain ⟨pre, rfl | rfl⟩ := hs
        · have := (h pre).1; rw [hx] at this; cases this
        · have := (h pre).2; rw [hx] at this; cases this

theorem caption_run {k : Captions.Kind} {a : Attrs} : Run E (Held d A) (caption k a) := by
  unfold caption
  refine Runs.bind Runs.get fun c _ => ?_
  dsimp only
  split
  · exact Runs.bind (modify_run (fun _ => rfl) fun _ => rfl) fun _ _ => Run.pure
  · exact Run.pure

theorem optCaption_run {b : Bool} {k : Captions.Kind} {a : Attrs} : Run E (Held d A) (optCaption b k a) := by
  unfold optCaption
  split
  · exact caption_run
  · exact Run.pure

theorem renderImageBlock_run (hL : E .fail ∨ Standard L) {l : Loc} {a : Attrs} (h : E .fail ∨ AltOk L l a ∧ TitleOk a ∧ RolesOk a)
    (ha : ∀ e ∈ attrEls a, Run E (Held d A) (re e)) : Run E (Held d A) (renderImageBlock L re l a) := by
  unfold renderImageBlock
  refine Runs.bind (elementTitle_run (h.imp id fun h => h.2.1) ha) fun _ _ => ?_
  refine Runs.bind optCaption_run fun _ _ => ?_
  refine Runs.bind (imageRoles_run (h.imp id fun h => h.2.2) ha) fun _ _ => ?_
  refine Runs.bind imageSrc_run fun _ hs => ?_
  refine Runs.bind (imageAlt_run (h.imp id fun h => h.1) hs) fun _ _ => ?_
  exact exec_runs hL (by filled)

theorem renderInlineImage_run (hL : E .fail ∨ Standard L) {l : Loc} {a : Attrs} (h : E .fail ∨ AltOk L l a ∧ TitleOk a ∧ RolesOk a)
    (ha : ∀ e ∈ attrEls a, Run E (Held d A) (re e)) : Run E (Held d A) (renderInlineImage L re l a) := by
  unfold renderInlineImage
  refine Runs.bind (imageRoles_run (h.imp id fun h => h.2.2) ha) fun _ _ => ?_
  refine Runs.bind imageSrc_run fun _ hs => ?_
  refine Runs.bind (imageAlt_run (h.imp id fun h => h.1) hs) fun _ _ => ?_
  refine Runs.bind (elementTitle_run (h.imp id fun h => h.2.1) ha) fun _ _ => ?_
  exact exec_runs hL (by filled)

theorem renderIcon_run (hL : E .fail ∨ Standard L) (hA : E .fail ∨ ∀ k v, A k v → DocAttrOk L d k v) {cls : Text} {a : Attrs} {adm : Bool} :
    Run E (Held d A) (renderIcon L cls a adm) := by
  unfold renderIcon
  refine Runs.bind docAttrs_run fun doc hdoc => ?_
  extract_lets
  rename_i icons key capt font alt title env
  have hs : sigOf env = [("Class", .str), ("Alt", .str), ("Title", .str), ("Width", .str), ("Height", .str), ("Size", .str),
    ("Rotate", .str), ("Flip", .str), ("Link", .str), ("Window", .str), ("Src", .str), ("Admonition", .flag)] := rfl
  split
  · exact exec_runs hL (by rw [hs]; decide +kernel)
  split
  · exact exec_runs hL (by rw [hs]; decide +kernel)
  split
  · exact exec_runs hL (by rw [hs]; decide +kernel)
  · rename_i h1 h2 h3
    refine Runs.error (hA.resolve_right fun hA => ?_)
    have key : icons = "text".toList ∨ icons ∈ ["font".toList, "text".toList, "image".toList, []] := by
      cases hv : AMap.get doc "icons" with
      | none => left; show getStrD _ _ _ _ = _; unfold getStrD; rw [hv]
      | some v =>
        right
        have := (hA _ _ (hdoc _ _ hv)).1 rfl
        show getStrD _ _ _ _ ∈ _
        have e : getStrD L.sprint doc "icons" "text".toList = getStrD L.sprint [("icons", v)] "icons" [] := by
          have e' : AMap.get [("icons", v)] "icons" = some v := AMap.get_cons ..
          unfold getStrD; rw [hv, e']
          cases v <;> rfl
        rw [e]; exact this
    rcases key with k | k
    · exact h2 k
    · simp only [List.mem_cons, List.not_mem_nil, or_false] at k
      rcases k with k | k | k | k
      · exact h1 k
      · exact h2 k
      · exact h3 (.inl k)
      · exact h3 (.inr k)

theorem renderInlineIcon_run (hL : E .fail ∨ Standard L) (hA : E .fail ∨ ∀ k v, A k v → DocAttrOk L d k v) {cls : Text} {a : Attrs} :
    Run E (Held d A) (renderInlineIcon L cls a) := by
  unfold renderInlineIcon
  refine Runs.bind (renderIcon_run hL hA) fun _ _ => ?_
  exact exec_runs hL (by filled)

theorem renderButton_run (hL : E .fail ∨ Standard L) {a : Attrs} : Run E (Held d A) (renderButton L a) := by
  unfold renderButton
  exact exec_runs hL (by filled)

theorem renderCallout_run (hL : E .fail ∨ Standard L) {r : Int} : Run E (Held d A) (renderCallout L r) := by
  unfold renderCallout
  exact exec_runs hL (by filled)

end

/-! ### Plain text -/

section
variable {E : Err → Prop} {L : Lib}

theorem plainInline_err {p : El → Except Err Text} : ∀ {l : List El}, (∀ e ∈ l, ∀ x, p e = .error x → E x) →
    ∀ x, plainInline p l = .error x → E x
  | [], _, x, h => nomatch h
  | e :: l, hp, x, h => by
    unfold plainInline at h
    cases he : p e with
    | error y => rw [he] at h; cases h; exact hp e (List.mem_cons_self ..) _ he
    | ok t =>
      rw [he] at h
      cases hl : plainInline p l with
      | error y =>
        have := plainInline_err (fun e he => hp e (List.mem_cons_of_mem _ he)) y hl
        simp only [bind, Except.bind] at h
        rw [hl] at h; cases h; exact this
      | ok u =>
        simp only [bind, Except.bind] at h
        rw [hl] at h; cases h

theorem plainAll_err {p : El → Except Err Text} : ∀ {l : List El}, (∀ e ∈ l, ∀ x, p e = .error x → E x) →
    ∀ x, plainAll p l = .error x → E x
  | [], _, x, h => nomatch h
  | e :: l, hp, x, h => by
    unfold plainAll at h
    cases he : p e with
    | error y => rw [he] at h; cases h; exact hp e (List.mem_cons_self ..) _ he
    | ok t =>
      rw [he] at h
      cases hl : plainAll p l with
      | error y =>
        have := plainAll_err (fun e he => hp e (List.mem_cons_of_mem _ he)) y hl
        simp only [bind, Except.bind] at h
        rw [hl] at h; cases h; exact this
      | ok u =>
        simp only [bind, Except.bind] at h
        rw [hl] at h; cases h

/-- What must hold of an element to be written as plain text. -/
def PlainFine (E : Err → Prop) (esc : Bool) (e : El) : Prop :=
  (E .fail ∨ PlainKind e) ∧ (E .panic ∨ esc = true ∨ ∀ n, e ≠ .special n)

theorem size_attrs {a : List (String × AV)} {k : String} {v : AV} (h : AMap.get a k = some v) : sizeOf v < sizeOf a := by
  have h1 := List.sizeOf_lt_of_mem (AMap.get_eq_some_mem h)
  have h2 : sizeOf (k, v) = 1 + sizeOf k + sizeOf v := rfl
  omega

theorem plain_err {esc : Bool} : ∀ (n : Nat) {e : El}, Every plainKids (PlainFine E esc) e → (E .fuel ∨ sizeOf e ≤ n) →
    ∀ x, plain L (if esc then some Escape.escapeString else none) n e = .error x → E x
  | 0, e, _, hn, x, h => by
    cases h
    refine hn.resolve_right fun h => ?_
    cases e <;> simp at h
  | n + 1, e, hE, hn, x, h => by
    have ih : ∀ e, Every plainKids (PlainFine E esc) e → (E .fuel ∨ sizeOf e ≤ n) →
        ∀ x, plain L (if esc then some Escape.escapeString else none) n e = .error x → E x := fun e => plain_err n
    cases hE with
    | intro hp hk =>
    unfold plain at h
    cases e with
    | quoted k a els =>
      refine plainInline_err (fun e he => ih e (hk e he) ?_) x h
      refine hn.imp id fun hn => ?_
      have := List.sizeOf_lt_of_mem (show e ∈ els from he)
      simp at hn; omega
    | passthrough sp els =>
      refine plainInline_err (fun e he => ih e (hk e he) ?_) x h
      refine hn.imp id fun hn => ?_
      have := List.sizeOf_lt_of_mem (show e ∈ els from he)
      simp at hn; omega
    | link loc a =>
      dsimp only at h
      cases ht : AMap.get a "text" with
      | none => rw [ht] at h; cases h
      | some v =>
        rw [ht] at h
        cases v with
        | els l =>
          refine plainInline_err (fun e he => ih e (hk e ?_) ?_) x h
          · show e ∈ (match AMap.get a "text" with | some (.els l) => l | _ => [])
            rw [ht]; exact he
          · refine hn.imp id fun hn => ?_
            have h1 := List.sizeOf_lt_of_mem he
            have h2 := size_attrs ht
            simp at hn h2; omega
        | _ => cases h
    | special nm =>
      cases esc with
      | true => cases h
      | false =>
        cases h
        rcases hp.2 with h | h | h
        · exact h
        · cases h
        · exact absurd rfl (h nm)
    | footnoteRef id ref dup =>
      dsimp only at h
      by_cases hid : id = -1
      · rw [if_pos hid] at h
        cases h
        exact hp.1.resolve_right fun h => h hid
      · rw [if_neg hid] at h; cases h
    | icon => cases h
    | inlineImage => cases h
    | blankLine => cases h
    | symbol => cases h
    | str => cases h
    | _ => cases h; exact hp.1.resolve_right fun h => h

end

end Verif.Rend
