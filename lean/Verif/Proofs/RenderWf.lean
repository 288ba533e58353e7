import Verif.Proofs.RenderSat
/-!
The renderer writes well-formed fragments: the elements.
-/
namespace Verif.Rend
open Verif.Html Verif.Tmpl

/-! ### Attributes -/

def AttrsOk (R : Rules) (images : Bool) (a : Attrs) : Prop := ∀ k v, AMap.get a k = some v → CleanV R images k v

/-- The attributes whose values are not only scalars. -/
def richKeys : List String := textKeys ++ ["roles", "options", "checkstyle", "cols"]

section
variable {R : Rules} {images : Bool} {L : Lib} (hL : LibOk R L)
include hL

theorem scalar_safe {v : AV} (h : Scalar R v) : Safe R (match v with
    | .nil => []
    | .str t => t
    | v => L.sprint v) := by
  cases v with
  | nil => exact Safe.nil
  | str t => exact h
  | flag b => exact hL.sprintFlag b
  | num n => exact hL.sprintNum n
  | els l => exact h.elim
  | roles l => exact h.elim
  | options l => exact h.elim
  | check t => exact h.elim
  | cols l => exact h.elim
  | authors l => exact h.elim
  | revision a b c => exact h.elim
  | other => exact h.elim

theorem getStrD_scalar {a : Attrs} {k : String} {d : Text} (h : ∀ v, AMap.get a k = some v → Scalar R v) (hd : Safe R d) :
    Safe R (getStrD L.sprint a k d) := by
  unfold getStrD
  cases hg : AMap.get a k with
  | none => exact hd
  | some v =>
    have := scalar_safe hL (h v hg)
    cases v <;> exact this

omit hL in
theorem scalar_of_clean {k : String} {v : AV} (hk : k ∉ richKeys) (h : CleanV R images k v) : Scalar R v := by
  cases h with
  | scalar h => exact h
  | text hm => exact absurd (List.mem_append_left _ hm) hk
  | els hm => exact absurd (List.mem_append_left _ hm) hk
  | roles => exact absurd (by decide) hk
  | options => exact absurd (by decide) hk
  | check => exact absurd (by decide) hk
  | cols => exact absurd (by decide) hk
  | noCols => exact absurd (by decide) hk

theorem getStrD_safe {a : Attrs} (ha : AttrsOk R images a) {k : String} (hk : k ∉ richKeys) {d : Text} (hd : Safe R d) :
    Safe R (getStrD L.sprint a k d) :=
  getStrD_scalar hL (fun v hv => scalar_of_clean hk (ha k v hv)) hd

omit hL in
theorem getStr_some {a : Attrs} {k : String} {t : Text} (h : getStr a k = some t) : AMap.get a k = some (.str t) := by
  unfold getStr at h
  split at h
  · rename_i e; cases h; exact e
  · cases h

omit hL in
theorem getStr_safe {a : Attrs} (ha : AttrsOk R images a) {k : String} (hk : k ∉ richKeys) {t : Text} (h : getStr a k = some t) :
    Safe R t :=
  scalar_of_clean (v := .str t) hk (ha k _ (getStr_some h))

omit hL in
theorem str_plain {k : String} {t : Text} (h : CleanV R images k (.str t)) : Plain t := by
  cases h with
  | scalar h => exact h.1
  | text _ h => exact h

omit hL in
theorem getStr_plain {a : Attrs} (ha : AttrsOk R images a) {k : String} {t : Text} (h : getStr a k = some t) : Plain t :=
  str_plain (ha k _ (getStr_some h))

omit hL in
theorem elementID_value {a : Attrs} (ha : AttrsOk R images a) : Value R (elementID a) := by
  unfold elementID
  split
  · rename_i t e
    exact value_htmlEscape (scalar_of_clean (v := .str t) (by decide) (ha _ _ e)).2
  · exact Safe.nil.2

omit hL in
theorem elementStyle_value {a : Attrs} (ha : AttrsOk R images a) : Value R (elementStyle a) := by
  unfold elementStyle
  split
  · rename_i t e
    exact value_htmlEscape (scalar_of_clean (v := .str t) (by decide) (ha _ _ e)).2
  · exact Safe.nil.2

end

/-! ### What is known of the elements within -/

/-- The functions that render the elements within an element. -/
structure Within (R : Rules) (images : Bool) (re : El → M Text) (pl : Bool → El → Except Err Text) : Prop where
  markup : ∀ e, Clean R images e → Sat R images (Markup R) (re e)
  value : ∀ e, Simple R e → Sat R images (Value R) (re e)
  str : ∀ t, Sat R images (fun u => ∃ b, u = Escape.renderString b t) (re (.str t))
  plain : ∀ b e, TextClean e → ∀ t, pl b e = .ok t → Markup R t
  para : ∀ a l c t c', c.withinList > 0 → re (.paragraph a l) c = .ok (t, c') → t ≠ []

section
variable {R : Rules} {images : Bool} {L : Lib} {re : El → M Text} {pl : Bool → El → Except Err Text}
  (hL : LibOk R L) (hW : Within R images re pl)

include hW in
theorem renderAll_sat : ∀ {l : List El}, (∀ e ∈ l, Clean R images e) → Sat R images (Markup R) (renderAll re l)
  | [], _ => Sat.pure .empty
  | e :: l, h => by
    refine (hW.markup e (h e (List.mem_cons_self ..))).bind fun t ht => ?_
    exact (renderAll_sat fun x hx => h x (List.mem_cons_of_mem _ hx)).bind fun u hu => Sat.pure (ht.append hu)

include hW in
theorem renderListElements_sat : ∀ {l : List El}, (∀ e ∈ l, Clean R images e) → Sat R images (Markup R) (renderListElements re l)
  | [], _ => Sat.pure .empty
  | e :: l, h => by
    refine Sat.bind (P := fun _ => True) (Sat.modify ?_) fun _ _ => ?_
    · exact fun c hc => ⟨hc.attrs, hc.refs, hc.numbers, hc.prefixes⟩
    refine (hW.markup e (h e (List.mem_cons_self ..))).bind fun t ht => ?_
    refine Sat.bind (P := fun _ => True) (Sat.modify ?_) fun _ _ => ?_
    · exact fun c hc => ⟨hc.attrs, hc.refs, hc.numbers, hc.prefixes⟩
    exact (renderAll_sat hW fun x hx => h x (List.mem_cons_of_mem _ hx)).bind fun u hu => Sat.pure (ht.append hu)

theorem space_noTag : NoTag (· == ' ') := noTag_eq (by decide)
theorem nl_noTag : NoTag (· == '\n') := noTag_eq (by decide)

include hW in
theorem renderInline_sat : ∀ {l : List El}, (∀ e ∈ l, Clean R images e) → Sat R images (Markup R) (renderInline re l)
  | [], _ => Sat.pure .empty
  | e :: l, h => by
    refine (hW.markup e (h e (List.mem_cons_self ..))).bind fun t ht => ?_
    refine (renderInline_sat fun x hx => h x (List.mem_cons_of_mem _ hx)).bind fun u hu => Sat.pure (Markup.append ?_ hu)
    split
    · exact markup_trimRight space_noTag ht
    · exact ht

/-- A text that has the effect of some filled text. -/
def Fills (R : Rules) (l : List El) (t : Text) : Prop :=
  ∃ u, Filled R l u ∧ ∀ s s', scan R s u = some s' → scan R s t = some s'

theorem Fills.markup {l : List El} {t : Text} (h : Fills R l t) (hb : Balanced R l) : Markup R t := by
  obtain ⟨u, hu, hs⟩ := h
  exact markup_iff.mpr (hs _ _ (markup_iff.mp (hb u hu)))

theorem Fills.nil : Fills R [] [] := ⟨[], .nil, fun _ _ h => h⟩

theorem Fills.str {l : List El} {t u t' : Text} (ht : ∀ s s', scan R s t = some s' → scan R s t' = some s') (h : Fills R l u) :
    Fills R (.str t :: l) (t' ++ u) := by
  obtain ⟨w, hw, hs⟩ := h
  refine ⟨t ++ w, .str hw, fun s s' e => ?_⟩
  obtain ⟨s1, h1, h2⟩ := scan_append_some e
  exact scan_append_of (ht _ _ h1) (hs _ _ h2)

theorem Fills.other {e : El} {l : List El} {t u : Text} (he : e.isStr = false) (ht : Markup R t) (h : Fills R l u) :
    Fills R (e :: l) (t ++ u) := by
  obtain ⟨w, hw, hs⟩ := h
  refine ⟨t ++ w, .other he ht hw, fun s s' e => ?_⟩
  obtain ⟨s1, h1, h2⟩ := scan_append_some e
  exact scan_append_of h1 (hs _ _ h2)

include hW in
theorem renderAll_fills : ∀ {l : List El}, (∀ e ∈ l, e.isStr = false → Clean R images e) →
    Sat R images (Fills R l) (renderAll re l)
  | [], _ => Sat.pure Fills.nil
  | e :: l, h => by
    have ih := renderAll_fills fun x hx => h x (List.mem_cons_of_mem _ hx)
    cases he : e.isStr with
    | true =>
      cases e with
      | str t =>
        refine (hW.str t).bind fun u hu => ih.bind fun w hw => Sat.pure ?_
        obtain ⟨b, rfl⟩ := hu
        exact hw.str fun s s' => scan_renderString
      | _ => cases he
    | false =>
      exact (hW.markup e (h e (List.mem_cons_self ..) he)).bind fun t ht => ih.bind fun u hu => Sat.pure (hu.other he ht)

include hW in
theorem renderAll_balanced {l : List El} (h : ∀ e ∈ l, e.isStr = false → Clean R images e) (hb : Balanced R l) :
    Sat R images (Markup R) (renderAll re l) :=
  (renderAll_fills hW h).mono fun _ ht => ht.markup hb

include hW in
theorem passthroughAll_fills : ∀ {l : List El}, (∀ e ∈ l, e.isStr = false → Clean R images e) →
    Sat R images (Fills R l) (passthroughAll re l)
  | [], _ => Sat.pure Fills.nil
  | e :: l, h => by
    have ih := passthroughAll_fills fun x hx => h x (List.mem_cons_of_mem _ hx)
    cases he : e.isStr with
    | true =>
      cases e with
      | str t => exact ih.bind fun w hw => Sat.pure (hw.str fun s s' h => h)
      | _ => cases he
    | false =>
      have e1 : passthroughAll re (e :: l) = (do
          let t ← re e
          let u ← passthroughAll re l
          return t ++ u) := by
        cases e <;> first | rfl | cases he
      rw [e1]
      exact (hW.markup e (h e (List.mem_cons_self ..) he)).bind fun t ht => ih.bind fun u hu => Sat.pure (hu.other he ht)

include hW in
theorem renderInline_balanced {l : List El} (h : ∀ e ∈ l, e.isStr = false → Clean R images e) (hb : Balanced R l) :
    Sat R images (Markup R) (renderInline re l) := by
  have key : ∀ {l : List El}, (∀ e ∈ l, e.isStr = false → Clean R images e) →
      Sat R images (fun t => ∃ w, Fills R l (t ++ w) ∧ Plain w) (renderInline re l) := by
    intro l
    induction l with
    | nil => exact fun _ => Sat.pure ⟨[], Fills.nil, fun _ h => nomatch h⟩
    | cons e l ih =>
      intro h
      have ih := ih fun x hx => h x (List.mem_cons_of_mem _ hx)
      cases he : e.isStr with
      | true =>
        cases e with
        | str t =>
          refine (hW.str t).bind fun u hu => ?_
          obtain ⟨b, rfl⟩ := hu
          cases l with
          | nil =>
            refine Sat.bind (P := fun v => v = []) (Sat.pure rfl) fun v hv => Sat.pure ?_
            subst hv
            obtain ⟨q, e, hq⟩ := trimRight_split (· == ' ') (Escape.renderString b t)
            refine ⟨q, ?_, fun c hc => space_noTag c (hq c hc)⟩
            show Fills R [.str t] (trimRight (· == ' ') (Escape.renderString b t) ++ [] ++ q)
            rw [List.append_nil, ← e, ← List.append_nil (Escape.renderString b t)]
            exact Fills.nil.str fun s s' => scan_renderString
          | cons y l =>
            refine ih.bind fun v hv => Sat.pure ?_
            obtain ⟨w, hw, hp⟩ := hv
            exact ⟨w, by rw [List.append_assoc]; exact hw.str fun s s' => scan_renderString, hp⟩
        | _ => cases he
      | false =>
        refine (hW.markup e (h e (List.mem_cons_self ..) he)).bind fun t ht => ih.bind fun u hu => Sat.pure ?_
        obtain ⟨w, hw, hp⟩ := hu
        refine ⟨w, ?_, hp⟩
        rw [List.append_assoc, if_neg (by simp [he])]
        exact hw.other he ht
  exact (key h).mono fun t ⟨w, hw, hp⟩ => (hw.markup hb).drop_end hp


/-! ### Roles and titles -/

include hW in
theorem renderSimple_sat : ∀ {l : List El}, (∀ e ∈ l, Simple R e) → Sat R images (Value R) (renderAll re l)
  | [], _ => Sat.pure fun _ h => nomatch h
  | e :: l, h => by
    refine (hW.value e (h e (List.mem_cons_self ..))).bind fun t ht => ?_
    exact (renderSimple_sat fun x hx => h x (List.mem_cons_of_mem _ hx)).bind fun u hu => Sat.pure (Value.append ht hu)

include hW in
theorem elementRole_sat {v : AV} (h : RoleOk R v) : Sat R images (Value R) (elementRole re v) := by
  cases v with
  | str t => exact Sat.pure h.2
  | els l => exact renderSimple_sat hW h
  | _ => exact h.elim

include hW in
theorem rolesAll_sat : ∀ {l : List AV}, (∀ v ∈ l, RoleOk R v) → Sat R images (fun ts => ∀ t ∈ ts, Value R t) (rolesAll re l)
  | [], _ => Sat.pure fun _ h => nomatch h
  | v :: l, h => by
    refine (elementRole_sat hW (h v (List.mem_cons_self ..))).bind fun t ht => ?_
    refine (rolesAll_sat fun x hx => h x (List.mem_cons_of_mem _ hx)).bind fun u hu => Sat.pure ?_
    intro x hx
    rcases List.mem_cons.mp hx with rfl | hx
    · exact ht
    · exact hu x hx

theorem roles_clean {k : String} {l : List AV} (h : CleanV R images k (.roles l)) : ∀ v ∈ l, RoleOk R v := by
  cases h with
  | scalar h => exact h.elim
  | roles h => exact h

theorem space_value : Value R " ".toList := by
  have : ∀ c ∈ " ".toList, c ≠ '<' ∧ c ≠ '>' ∧ c ≠ '"' ∧ c ≠ '\n' := by decide
  exact (safe_of this).2

include hW in
theorem rolesOf_sat {a : Attrs} (ha : AttrsOk R images a) : Sat R images (fun ts => ∀ t ∈ ts, Value R t) (rolesOf re a) := by
  unfold rolesOf
  split
  · rename_i l e
    exact rolesAll_sat hW (roles_clean (ha _ _ e))
  · exact Sat.pure fun _ h => nomatch h

include hW in
theorem elementRoles_sat {a : Attrs} (ha : AttrsOk R images a) : Sat R images (Value R) (elementRoles re a) :=
  (rolesOf_sat hW ha).bind fun _ hts => Sat.pure (safe_join space_value hts)

/-- Texts in which no character matters, given as literals. -/
theorem safe_lit {t : Text} (h : t.all (fun c => c != '<' && c != '>' && c != '"' && c != '\n') = true) : Safe R t :=
  safe_of fun c hc => by simpa [and_assoc] using List.all_eq_true.mp h c hc

include hW in
theorem imageRoles_sat {a : Attrs} (ha : AttrsOk R images a) : Sat R images (Value R) (imageRoles re a) := by
  unfold imageRoles
  refine (rolesOf_sat hW ha).bind fun ts hts => Sat.pure (safe_join space_value ?_)
  intro t ht
  rcases List.mem_append.mp ht with ht | ht
  · rcases List.mem_append.mp ht with ht | ht
    · cases h : getStr a "float" with
      | none => rw [h] at ht; cases ht
      | some u =>
        rw [h] at ht
        simp only [Option.toList_some, List.mem_singleton] at ht
        subst ht
        exact (getStr_safe ha (by decide) h).2
    · cases h : getStr a "align" with
      | none => rw [h] at ht; cases ht
      | some u =>
        rw [h] at ht
        simp only [Option.map_some, Option.toList_some, List.mem_singleton] at ht
        subst ht
        exact Value.append (safe_lit (by decide)).2 (getStr_safe ha (by decide) h).2
  · exact hts t ht

theorem els_clean {k : String} {l : List El} (h : CleanV R images k (.els l)) : ∀ e ∈ l, Clean R images e := by
  cases h with
  | scalar h => exact h.elim
  | els _ h => exact h
  | noCols => exact fun _ h => nomatch h

include hW in
theorem elementTitle_sat {a : Attrs} (ha : AttrsOk R images a) : Sat R images (Markup R) (elementTitle re a) := by
  unfold elementTitle
  split
  · exact Sat.pure .empty
  · rename_i t e; exact Sat.pure (str_plain (ha _ _ e)).markup
  · rename_i l e; exact renderAll_sat hW (els_clean (ha _ _ e))
  · exact Sat.error

/-! ### Inline elements -/

theorem renderStr_sat {t : Text} : Sat R images (fun u => ∃ b, u = Escape.renderString b t) (renderStr t) :=
  docAttrs_sat.bind fun _ _ => Sat.pure ⟨_, rfl⟩

theorem renderSpecial_sat {n : Text} : Sat R images (Safe R) (renderSpecial n) := by
  unfold renderSpecial
  refine Sat.ite (fun _ => Sat.pure (safe_lit (by decide))) fun _ => ?_
  refine Sat.ite (fun _ => Sat.pure (safe_lit (by decide))) fun _ => ?_
  exact Sat.ite (fun _ => Sat.pure (safe_lit (by decide))) fun _ => Sat.error

theorem lookup_mem' {α β : Type} [BEq α] [LawfulBEq α] : ∀ {l : List (α × β)} {k : α} {v : β}, l.lookup k = some v → (k, v) ∈ l
  | [], _, _, h => nomatch h
  | (k', v') :: l, k, v, h => by
    rw [List.lookup_cons] at h
    split at h
    · rename_i e
      have e : k = k' := by simpa using e
      cases h; subst e; exact List.mem_cons_self ..
    · exact List.mem_cons_of_mem _ (lookup_mem' h)

theorem symbols_safe {n t : Text} (h : symbols.lookup n = some t) : Safe R t := by
  have key : ∀ p ∈ symbols, p.2.all (fun c => c != '<' && c != '>' && c != '"' && c != '\n') = true := by decide +kernel
  exact safe_lit (key _ (lookup_mem' h))

theorem renderSymbol_sat {n : Text} : Sat R images (Safe R) (renderSymbol n) := by
  unfold renderSymbol
  split
  · rename_i t e; exact Sat.pure (symbols_safe e)
  · exact Sat.error

theorem predefined_chars : ∀ p ∈ predefinedAttributes, (p.1 ≠ "lt" → ∀ c ∈ p.2, c ≠ '<' ∧ c ≠ '"' ∧ c ≠ '\n') ∧
    (p.1 ≠ "gt" → ∀ c ∈ p.2, c ≠ '>') := by decide +kernel

theorem predefined_value {n : String} (h : n ≠ "lt") : Value R ((predefinedAttributes.get n).getD []) := by
  cases hg : predefinedAttributes.get n with
  | none => exact fun _ h => nomatch h
  | some t =>
    have := (predefined_chars _ (AMap.get_eq_some_mem hg)).1 h
    exact fun c hc => ⟨(this c hc).2.1, (this c hc).1, fun _ => (this c hc).2.2⟩

theorem predefined_plain {n : String} (h : n ≠ "lt") (h' : n ≠ "gt") : Plain ((predefinedAttributes.get n).getD []) := by
  cases hg : predefinedAttributes.get n with
  | none => exact fun _ h => nomatch h
  | some t =>
    have := predefined_chars _ (AMap.get_eq_some_mem hg)
    exact fun c hc => ⟨(this.1 h c hc).1, this.2 h' c hc⟩

include hL hW in
theorem renderQuoted_sat {k : QuotedKind} {a : Attrs} {l : List El} (ha : AttrsOk R images a) (hl : ∀ e ∈ l, Clean R images e) :
    Sat R images (Markup R) (renderQuoted L re k a l) := by
  unfold renderQuoted
  refine (renderAll_sat hW hl).bind fun content hcontent => (elementRoles_sat hW ha).bind fun roles hroles => ?_
  have hid := elementID_value ha
  cases k with
  | bold => exact exec_sat hL boldText_ok (by fits) holds_nil
  | italic => exact exec_sat hL italicText_ok (by fits) holds_nil
  | marked => exact exec_sat hL markedText_ok (by fits) holds_nil
  | monospace => exact exec_sat hL monospaceText_ok (by fits) holds_nil
  | subscript => exact exec_sat hL subscriptText_ok (by fits) holds_nil
  | superscript => exact exec_sat hL superscriptText_ok (by fits) holds_nil
  | other => exact Sat.error

include hW in
theorem passthroughContent_sat {l : List El} (hl : ∀ e ∈ l, e.isStr = false → Clean R images e) (hb : Balanced R l) :
    Sat R images (Markup R) (passthroughContent re l) :=
  (passthroughAll_fills hW hl).bind fun _ ht => Sat.pure (markup_trim nl_noTag (ht.markup hb))

include hW in
theorem renderPassthrough_sat {sp : Bool} {l : List El} (hl : ∀ e ∈ l, e.isStr = false → Clean R images e)
    (hb : sp = false → Balanced R l) : Sat R images (Markup R) (renderPassthrough re sp l) := by
  unfold renderPassthrough
  cases sp with
  | true =>
    refine Sat.bind (P := fun _ => True) ?_ fun t _ => Sat.pure (plain_htmlEscape t).markup
    exact (passthroughAll_fills hW hl).bind fun _ _ => Sat.pure trivial
  | false => exact (passthroughContent_sat hW hl (hb rfl)).bind fun t ht => Sat.pure ht

theorem elsText_stringify {L : Lib} : ∀ {l : List El} {t : Text}, elsText l = some t → l.flatMap (stringifyEl L) = t
  | [], t, h => by cases h; rfl
  | e :: l, t, h => by
    cases e with
    | str u =>
      cases hl : elsText l with
      | none => simp only [elsText, hl] at h; cases h
      | some w =>
        simp only [elsText, hl, Option.map_some, Option.some.injEq] at h
        rw [List.flatMap_cons, elsText_stringify hl, ← h]; rfl
    | special u =>
      cases hl : elsText l with
      | none => simp only [elsText, hl] at h; cases h
      | some w =>
        simp only [elsText, hl, Option.map_some, Option.some.injEq] at h
        rw [List.flatMap_cons, elsText_stringify hl, ← h]; rfl
    | _ => cases h

theorem pathText_stringify {L : Lib} {v : AV} {t : Text} (h : pathText v = some t) : stringify L v = t := by
  cases v with
  | str u => cases h; rfl
  | els l => exact elsText_stringify h
  | _ => cases h

/-- The text of a location with a prefix. -/
theorem locString_of {P : Text → Prop} {l : Loc} (h : LocOk P l) (pre : Text) :
    ∃ t, P (l.scheme ++ t) ∧ locString L pre l = l.scheme ++ pre ++ t := by
  obtain ⟨t, e, hp⟩ := h
  obtain ⟨i, sch, path⟩ := l
  refine ⟨t, hp, ?_⟩
  show sch ++ pre ++ stringify L path = sch ++ pre ++ t
  rw [pathText_stringify (v := path) e]

theorem locDisplay_of {P : Text → Prop} {l : Loc} (h : LocOk P l) (pre : Text) :
    ∃ t, P (l.scheme ++ t) ∧ (locDisplay L pre l = l.scheme ++ pre ++ t ∨ locDisplay L pre l = pre ++ t) := by
  obtain ⟨t, e, hp⟩ := h
  obtain ⟨i, sch, path⟩ := l
  refine ⟨t, hp, ?_⟩
  show (if sch = "mailto:".toList then [] else sch) ++ pre ++ stringify L path = sch ++ pre ++ t ∨
    (if sch = "mailto:".toList then [] else sch) ++ pre ++ stringify L path = pre ++ t
  rw [pathText_stringify (v := path) e]
  split
  · exact Or.inr rfl
  · exact Or.inl rfl

theorem safe_prefixed {s t p u : Text} (h : Safe R (s ++ t)) (hp : Safe R p) (hu : u = s ++ p ++ t ∨ u = p ++ t) : Safe R u := by
  have hs : Safe R s := h.sub fun c hc => List.mem_append_left _ hc
  have ht : Safe R t := h.sub fun c hc => List.mem_append_right _ hc
  rcases hu with rfl | rfl
  · exact (hs.append hp).append ht
  · exact hp.append ht

theorem oneLine_of_value {t : Text} (h : Value R t) : OneLine R t := fun ho hc => (h _ hc).2.2 ho rfl

theorem oneLine_prefixed {s t p u : Text} (h : OneLine R (s ++ t)) (hp : Safe R p) (hu : u = s ++ p ++ t ∨ u = p ++ t) :
    OneLine R u := by
  intro ho
  have h1 := h ho
  have h2 := oneLine_of_value hp.2 ho
  simp only [List.mem_append, not_or] at h1
  rcases hu with rfl | rfl
  · simp [h1, h2]
  · simp [h1, h2]

theorem prefixOf_safe {c : Ctx} (hc : Inv R images c) (l : Loc) : Safe R (prefixOf c l) ∧ '%' ∉ prefixOf c l := by
  unfold prefixOf
  cases h : c.prefixes.lookup l.id with
  | none => exact ⟨Safe.nil, fun h => nomatch h⟩
  | some p => exact hc.prefixes _ (lookup_mem' h)

theorem bareClass_value {loc : Option Loc} {roles : Text} (h : Value R roles) : Value R (bareClass loc roles) := by
  unfold bareClass
  have hcls : Value R (match loc with
      | some l => if l.scheme = "mailto:".toList then [] else "bare".toList
      | none => []) := by
    split
    · split
      · exact Safe.nil.2
      · exact (safe_lit (by decide)).2
    · exact Safe.nil.2
  dsimp only
  split
  · exact hcls
  · exact Value.append (Value.append hcls space_value) h

theorem urlOf_oneLine {c : Ctx} (hc : Inv R images c) {loc : Option Loc} (hloc : ∀ l, loc = some l → LocOk (OneLine R) l) :
    OneLine R (urlOf L c loc) := by
  cases loc with
  | none => exact fun _ h => nomatch h
  | some l =>
    obtain ⟨t, ht, e⟩ := locString_of (L := L) (hloc l rfl) (prefixOf c l)
    exact oneLine_prefixed ht (prefixOf_safe hc l).1 (Or.inl e)

theorem displayOf_safe {c : Ctx} (hc : Inv R images c) {loc : Option Loc} (hloc : ∀ l, loc = some l → LocOk (Safe R) l) :
    Safe R (displayOf L c loc) := by
  cases loc with
  | none => exact Safe.nil
  | some l =>
    obtain ⟨t, ht, e⟩ := locDisplay_of (L := L) (hloc l rfl) (prefixOf c l)
    exact safe_prefixed ht (prefixOf_safe hc l).1 e

include hW in
theorem linkText_sat {loc : Option Loc} {a : Attrs} {display roles : Text} (ha : AttrsOk R images a) (hr : Value R roles) :
    Sat R images (fun p : Text × Text => Markup R p.1 ∧ Value R p.2) (linkText re loc a display roles) := by
  unfold linkText
  split
  · exact Sat.pure ⟨(plain_escape _).markup, hr⟩
  · rename_i l e
    exact (renderInline_sat hW (els_clean (ha _ _ e))).bind fun t ht => Sat.pure ⟨ht, hr⟩
  · exact Sat.pure ⟨.empty, hr⟩
  · exact Sat.pure ⟨(plain_escape _).markup, bareClass_value hr⟩

include hL hW in
theorem renderLink_sat {loc : Option Loc} {a : Attrs} (ha : AttrsOk R images a) (hloc : ∀ l, loc = some l → LocOk (OneLine R) l) :
    Sat R images (Markup R) (renderLink L re loc a) := by
  unfold renderLink
  refine Sat.get.bind fun c hc => (elementRoles_sat hW ha).bind fun roles hroles => (linkText_sat hW ha hroles).bind fun p hp => ?_
  have hurl := value_escape (urlOf_oneLine (L := L) hc hloc)
  obtain ⟨text, cls⟩ := p
  obtain ⟨htext, hcls⟩ := hp
  have hid := (getStrD_safe hL ha (k := "id") (by decide) Safe.nil).2
  have hw := (getStrD_safe hL ha (k := "window") (by decide) Safe.nil).2
  exact exec_sat hL link_ok (by fits) holds_nil

end
end Verif.Rend
