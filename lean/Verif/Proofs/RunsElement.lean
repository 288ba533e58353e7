import Verif.Proofs.RunsBlocks
/-!
The rendering of elements runs (C53, C54, C55).
-/
namespace Verif.Rend
open Verif.Tmpl (Tm Templates html5 xhtml5)
open Verif (Text)

/-! ### Sizes -/

theorem mem_lookup {l : List (Text × AV)} {k : Text} {v : AV} (h : l.lookup k = some v) : (k, v) ∈ l := by
  induction l with
  | nil => cases h
  | cons p l ih =>
    obtain ⟨a, b⟩ := p
    rw [List.lookup_cons] at h
    split at h
    · rename_i e
      cases h
      rw [eq_of_beq e]
      exact List.mem_cons_self ..
    · exact List.mem_cons_of_mem _ (ih h)

theorem size_roleEls {v : AV} {e : El} (h : e ∈ roleEls v) : sizeOf e < sizeOf v := by
  cases v with
  | els l => have := List.sizeOf_lt_of_mem (show e ∈ l from h); simp; omega
  | _ => cases h

theorem size_valueEls {v : AV} {e : El} (h : e ∈ valueEls v) : sizeOf e < sizeOf v := by
  cases v with
  | els l => have := List.sizeOf_lt_of_mem (show e ∈ l from h); simp; omega
  | roles l =>
    obtain ⟨r, hr, he⟩ := List.mem_flatMap.mp (show e ∈ l.flatMap roleEls from h)
    have h1 := List.sizeOf_lt_of_mem hr
    have h2 := size_roleEls he
    simp; omega
  | _ => cases h

theorem size_attrEls {a : List (String × AV)} {e : El} (h : e ∈ attrEls a) : sizeOf e < sizeOf a := by
  obtain ⟨p, hp, he⟩ := List.mem_flatMap.mp h
  obtain ⟨k, v⟩ := p
  have h1 := List.sizeOf_lt_of_mem hp
  have h2 := size_valueEls he
  have h3 : sizeOf (k, v) = 1 + sizeOf k + sizeOf v := rfl
  dsimp only at h2
  omega

theorem size_flatten {l : List (List El)} {e : El} (h : e ∈ l.flatten) : sizeOf e < sizeOf l := by
  obtain ⟨r, hr, he⟩ := List.mem_flatten.mp h
  have h1 := List.sizeOf_lt_of_mem hr
  have h2 := List.sizeOf_lt_of_mem he
  omega

theorem size_getD {l : Option (List (List El))} {e : El} (h : e ∈ (l.getD []).flatten) : sizeOf e < sizeOf l := by
  cases l with
  | none => cases h
  | some l => have := size_flatten (show e ∈ l.flatten from h); simp; omega

theorem size_item {i : Item} {e : El} (h : e ∈ i.term ++ i.els) : sizeOf e < sizeOf i := by
  obtain ⟨k, els, term, s, c, r⟩ := i
  rcases List.mem_append.mp h with h | h
  · have := List.sizeOf_lt_of_mem (show e ∈ term from h); simp; omega
  · have := List.sizeOf_lt_of_mem (show e ∈ els from h); simp; omega

theorem size_kids {e k : El} (h : k ∈ kids e) : sizeOf k < sizeOf e := by
  have two : ∀ {a : List (String × AV)} {l : List El}, k ∈ attrEls a ++ l → sizeOf k < sizeOf a ∨ sizeOf k < sizeOf l := by
    intro a l h
    exact (List.mem_append.mp h).imp size_attrEls List.sizeOf_lt_of_mem
  cases e with
  | quoted q a els => have := two h; simp; omega
  | passthrough _ els => have := List.sizeOf_lt_of_mem (show k ∈ els from h); simp; omega
  | link _ a => have := size_attrEls (show k ∈ attrEls a from h); simp; omega
  | extXref _ a => have := size_attrEls (show k ∈ attrEls a from h); simp; omega
  | inlineImage _ a => have := size_attrEls (show k ∈ attrEls a from h); simp; omega
  | imageBlock _ a => have := size_attrEls (show k ∈ attrEls a from h); simp; omega
  | indexTerm els => have := List.sizeOf_lt_of_mem (show k ∈ els from h); simp; omega
  | userMacro b n v a raw =>
    have : k = .str raw := List.mem_singleton.mp h
    subst this
    simp; omega
  | paragraph a els => have := two h; simp; omega
  | block _ a els => have := two h; simp; omega
  | list _ a items =>
    rcases List.mem_append.mp h with h | h
    · have := size_attrEls h; simp; omega
    · obtain ⟨i, hi, he⟩ := List.mem_flatMap.mp h
      have h1 := List.sizeOf_lt_of_mem hi
      have h2 := size_item he
      simp; omega
  | table a header rows footer =>
    rcases List.mem_append.mp h with h | h
    · rcases List.mem_append.mp h with h | h
      · rcases List.mem_append.mp h with h | h
        · have := size_attrEls h; simp; omega
        · have := size_getD h; simp; omega
      · obtain ⟨c, hc, he⟩ := List.mem_flatten.mp h
        obtain ⟨r, hr, hc⟩ := List.mem_flatten.mp hc
        have h1 := List.sizeOf_lt_of_mem hr
        have h2 := List.sizeOf_lt_of_mem hc
        have h3 := List.sizeOf_lt_of_mem he
        simp; omega
    · have := size_getD h; simp; omega
  | sect _ a title els =>
    rcases List.mem_append.mp h with h | h
    · have := two h; simp; omega
    · have := List.sizeOf_lt_of_mem h; simp; omega
  | preamble els _ => have := List.sizeOf_lt_of_mem (show k ∈ els from h); simp; omega
  | attrDecl n v => have := size_valueEls (show k ∈ valueEls v from h); simp; omega
  | frontMatter a => have := size_attrEls (show k ∈ attrEls a from h); simp; omega
  | docHeader a t els =>
    rcases List.mem_append.mp h with h | h
    · rcases List.mem_append.mp h with h | h
      · have := size_attrEls h; simp; omega
      · cases t with
        | none => cases h
        | some t => have := List.sizeOf_lt_of_mem (show k ∈ t from h); simp; omega
    · have := List.sizeOf_lt_of_mem h; simp; omega
  | _ => cases h

theorem size_plainKids {e k : El} (h : k ∈ plainKids e) : sizeOf k < sizeOf e := by
  cases e with
  | quoted q a els => have := List.sizeOf_lt_of_mem (show k ∈ els from h); simp; omega
  | passthrough _ els => have := List.sizeOf_lt_of_mem (show k ∈ els from h); simp; omega
  | link loc a =>
    have h : k ∈ (match AMap.get a "text" with | some (.els l) => l | _ => []) := h
    split at h
    · rename_i l hl
      have h1 := size_attrs hl
      have h2 := List.sizeOf_lt_of_mem h
      simp at h1 ⊢; omega
    · cases h
  | _ => cases h

/-! ### `Every` -/

section
variable {sub : El → List El} {P Q : El → Prop}

theorem Every.here {e : El} (h : Every sub P e) : P e := by cases h; assumption
theorem Every.kid {e k : El} (h : Every sub P e) (hk : k ∈ sub e) : Every sub P k := by
  cases h with
  | intro _ h => exact h k hk

theorem Every.mono {e : El} (h : Every sub P e) (hi : ∀ e, P e → Q e) : Every sub Q e := by
  induction h with
  | intro hp _ ih => exact .intro (hi _ hp) ih

theorem Every.and {e : El} (h : Every sub P e) (h' : Every sub Q e) : Every sub (fun e => P e ∧ Q e) e := by
  induction h with
  | intro hp _ ih => exact .intro ⟨hp, h'.here⟩ fun k hk => ih k hk (h'.kid hk)

theorem every_of_all (hsub : ∀ e k, k ∈ sub e → sizeOf k < sizeOf e) (h : ∀ e, P e) (e : El) : Every sub P e := by
  generalize hn : sizeOf e = n
  induction n using Nat.strongRecOn generalizing e with
  | ind n ih => exact .intro (h e) fun k hk => ih (sizeOf k) (hn ▸ hsub e k hk) k rfl

theorem every_or {p : Prop} (hsub : ∀ e k, k ∈ sub e → sizeOf k < sizeOf e) {e : El} (h : p ∨ Every sub P e) :
    Every sub (fun e => p ∨ P e) e := by
  rcases h with h | h
  · exact every_of_all hsub (fun _ => .inl h) e
  · exact h.mono fun _ => .inr

end

section
variable {E : Err → Prop} {d : Doc} {A : String → AV → Prop} {L : Lib} {re : El → M Text} {pl : Bool → El → Except Err Text}

/-! ### Sections -/

theorem sectionTitle_run (hL : E .fail ∨ Standard L) {level : Int} {a : Attrs} {title : List El}
    (he : ∀ e ∈ title, Run E (Held d A) (re e)) : Run E (Held d A) (sectionTitle L re level a title) := by
  unfold sectionTitle
  refine Runs.bind (renderInline_run he) fun _ _ => ?_
  refine Runs.bind Runs.get fun _ _ => ?_
  exact exec_runs hL (by filled)

theorem renderSection_run (hL : E .fail ∨ Standard L) {level : Int} {a : Attrs} {title els : List El} (hr : E .fail ∨ RolesOk a)
    (ha : ∀ e ∈ attrEls a, Run E (Held d A) (re e)) (ht : ∀ e ∈ title, Run E (Held d A) (re e))
    (he : ∀ e ∈ els, Run E (Held d A) (re e)) : Run E (Held d A) (renderSection L re level a title els) := by
  unfold renderSection
  refine Runs.bind (sectionTitle_run hL ht) fun _ _ => ?_
  refine Runs.bind (renderAll_run he) fun _ _ => ?_
  refine Runs.bind (elementRoles_run hr ha) fun _ _ => ?_
  exact exec_runs hL (by filled)

mutual
theorem tocEntry_run (hL : E .fail ∨ Standard L) : ∀ (t : Toc), Run E (Held d A) (tocEntry L t)
  | .entry id level title number children => by
    unfold tocEntry
    refine Runs.bind (tocSections_run hL children) fun _ _ => ?_
    exact exec_runs hL (by filled)
theorem tocEntries_run (hL : E .fail ∨ Standard L) : ∀ (l : List Toc), Run E (Held d A) (tocEntries L l)
  | [] => Run.pure
  | t :: l => by
    unfold tocEntries
    exact Runs.bind (tocEntry_run hL t) fun _ _ => Runs.bind (tocEntries_run hL l) fun _ _ => Run.pure
theorem tocSections_run (hL : E .fail ∨ Standard L) : ∀ (l : List Toc), Run E (Held d A) (tocSections L l)
  | [] => Run.pure
  | .entry id level title number children :: l => by
    unfold tocSections
    refine Runs.bind (tocSections_run hL children) fun _ _ => ?_
    refine Runs.bind (exec_runs hL (by filled)) fun _ _ => ?_
    refine Runs.bind (tocEntries_run hL l) fun _ _ => ?_
    exact exec_runs hL (by filled)
end

theorem renderToc_run (hL : E .fail ∨ Standard L) (hA : E .fail ∨ ∀ k v, A k v → DocAttrOk L d k v)
    (ht : ∀ v, A "toc-title" v → ∀ e ∈ valueEls v, Run E (Held d A) (re e)) {t : Option (List Toc)} :
    Run E (Held d A) (renderToc L re t) := by
  unfold renderToc
  split
  · exact Run.pure
  · refine Runs.bind (P := fun _ => True) ?_ fun _ _ => ?_
    · unfold tocTitle
      refine Runs.bind docAttrs_run fun doc hdoc => ?_
      cases hv : AMap.get doc "toc-title" with
      | none => exact Run.pure
      | some v =>
        have hAv := hdoc _ _ hv
        have htx := hA.imp id fun hA => (hA _ _ hAv).2.1 rfl
        cases v with
        | str t => exact Run.pure
        | els l => exact renderAll_run (ht _ hAv)
        | _ => exact Runs.error (htx.resolve_right fun h => h)
    · refine Runs.bind (tocSections_run hL _) fun _ _ => ?_
      split
      · exact Run.pure
      · exact exec_runs hL (by filled)

theorem renderPreamble_run (hL : E .fail ∨ Standard L) (hA : E .fail ∨ ∀ k v, A k v → DocAttrOk L d k v)
    (ht : ∀ v, A "toc-title" v → ∀ e ∈ valueEls v, Run E (Held d A) (re e)) {els : List El} {t : Option (List Toc)}
    (he : ∀ e ∈ els, Run E (Held d A) (re e)) : Run E (Held d A) (renderPreamble L re els t) := by
  unfold renderPreamble
  refine Runs.bind (renderAll_run he) fun _ _ => ?_
  refine Runs.bind (renderToc_run hL hA ht) fun _ _ => ?_
  refine Runs.bind Runs.get fun _ _ => ?_
  exact exec_runs hL (by filled)

theorem setAll_held : ∀ {b a : Attrs}, (∀ k v, AMap.get a k = some v → A k v) → (∀ p ∈ b, A p.1 p.2) →
    ∀ k v, AMap.get (a.setAll b) k = some v → A k v
  | [], a, ha, _ => ha
  | p :: b, a, ha, hb => by
    have : a.setAll (p :: b) = (a.set p.1 p.2).setAll b := rfl
    rw [this]
    refine setAll_held ?_ fun q hq => hb q (List.mem_cons_of_mem _ hq)
    intro k v h
    rw [AMap.get_set] at h
    split at h
    · rename_i e; cases h; subst e; exact hb p (List.mem_cons_self ..)
    · exact ha k v h

/-- The rendering of an element, given that of those within it. -/
theorem dispatch_run (hL : E .fail ∨ Standard L) (hA : E .fail ∨ ∀ k v, A k v → DocAttrOk L d k v) {e : El}
    (hF : E .fail ∨ FailFree L d e) (hP : E .panic ∨ PanicFree L d e) (hk : ∀ k ∈ kids e, Run E (Held d A) (re k))
    (hc : ∀ k ∈ kids e, ∀ a els, k = .paragraph a els → (E .fail ∨ TitleOk a) ∧ ∀ x ∈ kids k, Run E (Held d A) (re x))
    (hx : ∀ id l, needs e = some (.ref id) → d.refs.lookup id = some (.els l) → (∀ e ∈ l, Run E (Held d A) (re e)) ∧
      ((E .fail ∨ ∀ loc a, El.link loc a ∈ l → Plainable (.link loc a)) → ∀ loc a, El.link loc a ∈ l → ∀ x, pl true (.link loc a) = .error x → E x))
    (ht : needs e = some .tocTitle → ∀ v, A "toc-title" v → ∀ e ∈ valueEls v, Run E (Held d A) (re e))
    (hp : ∀ a els, e = .paragraph a els → getStr a "style" = some "verse".toList → ∀ e ∈ els, ∀ x, pl false e = .error x → E x)
    (hd : ∀ name v, e = .attrDecl name v → A name v) (hm : ∀ a, e = .frontMatter a → ∀ p ∈ a, A p.1 p.2) :
    Run E (Held d A) (dispatch L re pl e) := by
  unfold dispatch
  cases e with
  | toc s => exact renderToc_run hL hA (ht rfl)
  | sect level a title els =>
    exact renderSection_run hL hF (fun e h => hk e (List.mem_append_left _ (List.mem_append_left _ h)))
      (fun e h => hk e (List.mem_append_left _ (List.mem_append_right _ h))) fun e h => hk e (List.mem_append_right _ h)
  | preamble els toc => exact renderPreamble_run hL hA (ht rfl) hk
  | list k a items =>
    refine renderList_run hL (hF.imp id fun h => h.1) (hF.imp id fun h => h.2.1) (hF.imp id fun h => h.2.2) ?_
      (fun e h => hk e (List.mem_append_left _ h)) fun i hi e h => hk e (List.mem_append_right _ (List.mem_flatMap.mpr ⟨i, hi, h⟩))
    exact hP.imp id fun h e => by subst e; exact h
  | callout ref => exact renderCallout_run hL
  | paragraph a els =>
    exact renderParagraph_run hL hA (hF.imp id fun h => h.1) (hF.imp id fun h => h.2.1) (fun hs => hF.imp id fun h => h.2.2.1 hs)
      (fun e h => hk e (List.mem_append_left _ h)) (fun e h => hk e (List.mem_append_right _ h)) (hp a els rfl)
  | xref id label =>
    have hn : ∀ t, id = .str t → (∀ u, label ≠ .str u) → needs (.xref id label) = some (.ref t) := by
      rintro t rfl h
      cases label with
      | str u => exact absurd rfl (h u)
      | _ => rfl
    refine renderXref_run hL hF (fun t e h l hl => (hx t l (hn t e h) hl).1) fun t e h l hl => (hx t l (hn t e h) hl).2 ?_
    refine hF.imp (fun h => h) ?_
    rintro ⟨t', e', h'⟩
    rw [e] at e'
    cases e'
    rcases h' with ⟨u, rfl⟩ | h'
    · exact absurd rfl (h u)
    · exact h' _ hl
  | extXref loc a => exact renderExtXref_run hL hk
  | quoted k a els =>
    exact renderQuoted_run hL hF (fun e h => hk e (List.mem_append_left _ h)) fun e h => hk e (List.mem_append_right _ h)
  | passthrough sp els => exact renderPassthrough_run hk
  | imageBlock loc a => exact renderImageBlock_run hL hF hk
  | button a => exact renderButton_run hL
  | inlineImage loc a => exact renderInlineImage_run hL hF hk
  | menu path => exact Run.pure
  | icon cls a => exact renderInlineIcon_run hL hA
  | block k a els =>
    exact renderBlock_run hL hA (hF.imp id fun h => h.1) (hF.imp id fun h => h.2.1) (hF.imp id fun h => h.2.2.1)
      (fun hk hs => hF.imp id fun h => h.2.2.2 hk hs)
      (fun e h => hk e (List.mem_append_left _ h)) (fun e h => hk e (List.mem_append_right _ h))
  | table a header rows footer =>
    have cell : ∀ {cells : Option (List (List El))}, (∀ e ∈ (cells.getD []).flatten, e ∈ kids (.table a header rows footer)) →
        ∀ a els, [El.paragraph a els] ∈ cells.getD [] → ∀ e ∈ els, Run E (Held d A) (re e) := by
      intro cells hc' a' els hm e he
      have h1 := hc' (.paragraph a' els) (List.mem_flatten.mpr ⟨_, hm, List.mem_singleton.mpr rfl⟩)
      exact (hc _ h1 _ _ rfl).2 e (List.mem_append_right _ he)
    refine renderTable_run hL (hF.imp id fun h => h.1) (hF.imp id fun h => h.2.1) (hF.imp id fun h => h.2.2.1)
      (hF.imp id fun h => h.2.2.2.1) (hF.imp id fun h => h.2.2.2.2) hP
      (fun e h => hk e (List.mem_append_left _ (List.mem_append_left _ (List.mem_append_left _ h))))
      (cell fun e h => List.mem_append_left _ (List.mem_append_left _ (List.mem_append_right _ h)))
      (cell fun e h => List.mem_append_right _ h) ?_
    intro r hr c hc' e he
    have hm : e ∈ kids (.table a header rows footer) :=
      List.mem_append_left _ (List.mem_append_right _ (List.mem_flatten.mpr ⟨c, List.mem_flatten.mpr ⟨r, hr, hc'⟩, he⟩))
    refine ⟨hk e hm, fun a' els e' => ?_⟩
    subst e'
    obtain ⟨h1, h2⟩ := hc _ hm _ _ rfl
    exact ⟨h1, fun e h => h2 e (List.mem_append_left _ h), fun e h => h2 e (List.mem_append_right _ h)⟩
  | link loc a => exact renderLink_run hL hF hk
  | str t => exact renderStr_run
  | footnoteRef id ref dup => exact renderFootnoteRef_run hL
  | lineBreak => exact exec_runs hL (by filled)
  | userMacro block name value a raw =>
    unfold renderUserMacro
    dsimp only
    cases hu : L.userMacro name with
    | none =>
      dsimp only
      split
      · refine renderParagraph_run hL hA (.inr fun v h => nomatch h) (.inr fun v h => nomatch h) (fun h => nomatch h)
          (fun e h => nomatch h) hk (fun h => nomatch h)
      · exact Run.pure
    | some f =>
      dsimp only
      cases hf : f block value a raw with
      | some t => exact Run.pure
      | none => exact Runs.error (hF.resolve_right fun h => by have := h f hu; rw [hf] at this; cases this)
  | indexTerm els => exact renderInline_run hk
  | concealed => exact Run.pure
  | thematicBreak => exact exec_runs hL (by filled)
  | special name => exact renderSpecial_run hF
  | symbol name => exact renderSymbol_run hF
  | predefined name => exact Run.pure
  | attrDecl name v =>
    refine Runs.bind (Run.modify fun c hc => ⟨hc.1, fun k v' h => ?_⟩) fun _ _ => Run.pure
    dsimp only at h
    rw [AMap.get_set] at h
    split at h
    · rename_i e; cases h; subst e; exact hd _ _ rfl
    · exact hc.2 k v' h
  | attrReset name =>
    refine Runs.bind (Run.modify fun c hc => ⟨hc.1, fun k v' h => ?_⟩) fun _ _ => Run.pure
    dsimp only at h
    rw [AMap.get_del] at h
    split at h
    · cases h
    · exact hc.2 k v' h
  | frontMatter a =>
    refine Runs.bind (Run.modify fun c hc => ⟨hc.1, setAll_held hc.2 (hm a rfl)⟩) fun _ _ => Run.pure
  | blankLine => exact Runs.error (hF.resolve_right fun h => h)
  | docHeader _ _ _ => exact Runs.error (hF.resolve_right fun h => h)
  | other => exact Runs.error (hF.resolve_right fun h => h)

end

/-! ### Elements -/

section
variable (E : Err → Prop) (d : Doc) (L : Lib) (rank : Label → Nat) (S : Nat)

/-- What must hold of an element, up to the allowed errors. -/
def Fine (k : Nat) (e : El) : Prop :=
  (E .fail ∨ FailFree L d e) ∧ (E .panic ∨ PanicFree L d e) ∧
    (E .fuel ∨ (∀ l, needs e = some l → rank l < k) ∧ DeclBelow rank e)

def Sound (k : Nat) (e : El) : Prop := Every kids (Fine E d L rank k) e ∧ (E .fuel ∨ sizeOf e ≤ S)

/-- What must hold of the attributes of the document. -/
def AttrGood (k : String) (v : AV) : Prop :=
  (E .fail ∨ DocAttrOk L d k v) ∧ (E .panic ∨ DoctypeOk L d k v) ∧
    (k = "toc-title" → ∀ e ∈ valueEls v, Sound E d L rank S (rank .tocTitle) e)

end

section
variable {E : Err → Prop} {d : Doc} {L : Lib} {rank : Label → Nat} {S : Nat}

theorem Sound.kid {k : Nat} {e x : El} (h : Sound E d L rank S k e) (hx : x ∈ kids e) : Sound E d L rank S k x :=
  ⟨h.1.kid hx, h.2.imp id fun h => by have := size_kids hx; omega⟩

/-- The title of the table of contents, as declared in an element. -/
theorem good_title {k : Nat} {v : AV} (h : ∀ e ∈ valueEls v, Sound E d L rank S k e)
    (hb : E .fuel ∨ TitleBelow rank "toc-title" v) : ∀ e ∈ valueEls v, Sound E d L rank S (rank .tocTitle) e := by
  intro e he
  refine ⟨?_, (h e he).2⟩
  have h1 := (h e he).1
  have h2 := every_or (fun _ _ => size_kids) (hb.imp id fun hb => hb rfl e he)
  refine (h1.and h2).mono ?_
  rintro x ⟨⟨a, b, c⟩, f⟩
  refine ⟨a, b, ?_⟩
  rcases f with f | f
  · exact .inl f
  · exact c.imp id fun c => ⟨f, c.2⟩

theorem good_decl {k : Nat} {name : String} {v : AV} (h : Sound E d L rank S k (.attrDecl name v)) : AttrGood E d L rank S name v := by
  refine ⟨h.1.here.1, h.1.here.2.1, ?_⟩
  rintro rfl
  exact good_title (fun e he => h.kid he) (h.1.here.2.2.imp id fun h => h.2)

theorem good_matter {k : Nat} {a : List (String × AV)} (h : Sound E d L rank S k (.frontMatter a)) :
    ∀ p ∈ a, AttrGood E d L rank S p.1 p.2 := by
  rintro ⟨name, v⟩ hp
  refine ⟨h.1.here.1.imp id fun h => h _ hp, h.1.here.2.1.imp id fun h => h _ hp, ?_⟩
  rintro e
  have e : name = "toc-title" := e
  subst e
  exact good_title (fun e he => h.kid (List.mem_flatMap.mpr ⟨_, hp, he⟩)) (h.1.here.2.2.imp id fun h => h.2 _ hp)

theorem size_pos (e : El) : 1 ≤ sizeOf e := by cases e <;> simp <;> omega

/-- One step: the rendering of an element, given that of smaller ones. -/
theorem step_run (hL : E .fail ∨ Standard L) (hrefs : ∀ p ∈ d.refs, ∀ e ∈ valueEls p.2, Sound E d L rank S (rank (.ref p.1)) e)
    {n k : Nat} (ih : ∀ (k : Nat) {e : El}, Sound E d L rank S k e → (E .fuel ∨ sizeOf e + k * S ≤ n) →
      Run E (Held d (AttrGood E d L rank S)) (renderElement L n e)) {e : El} (hg : Every kids (Fine E d L rank k) e)
    (hs : E .fuel ∨ ∀ x ∈ kids e, sizeOf x ≤ S) (hn : E .fuel ∨ k * S ≤ n ∧ ∀ x ∈ kids e, sizeOf x + k * S ≤ n)
    (hd : ∀ name v, e = .attrDecl name v → AttrGood E d L rank S name v)
    (hm : ∀ a, e = .frontMatter a → ∀ p ∈ a, AttrGood E d L rank S p.1 p.2) :
    Run E (Held d (AttrGood E d L rank S)) (renderElement L (n + 1) e) := by
  -- what is needed from elsewhere
  have far : ∀ (l : Label), needs e = some l → ∀ x, Sound E d L rank S (rank l) x → (E .fuel ∨ sizeOf x + rank l * S ≤ n) := by
    intro l hl x hx
    rcases hg.here.2.2 with h | h
    · exact .inl h
    rcases hx.2 with h' | h'
    · exact .inl h'
    refine hn.imp id fun hn => ?_
    have h1 := h.1 l hl
    have h2 : (rank l + 1) * S ≤ k * S := Nat.mul_le_mul_right S h1
    rw [Nat.add_mul] at h2
    omega
  have near : ∀ x ∈ kids e, Sound E d L rank S k x ∧ (E .fuel ∨ sizeOf x + k * S ≤ n) := fun x hx =>
    ⟨⟨hg.kid hx, hs.imp id fun h => h x hx⟩, hn.imp id fun hn => hn.2 x hx⟩
  unfold renderElement
  refine dispatch_run hL ?_ hg.here.1 hg.here.2.1 (fun x hx => ih k (near x hx).1 (near x hx).2) ?_ ?_ ?_ ?_ hd hm
  · rcases Classical.em (E .fail) with h | h
    · exact .inl h
    · exact .inr fun _ _ hA => hA.1.resolve_left h
  · rintro x hx a els rfl
    obtain ⟨g, s⟩ := near _ hx
    refine ⟨g.1.here.1.imp id fun h => h.1, fun y hy => ih k (g.kid hy) (s.imp id fun s => ?_)⟩
    have := size_kids hy
    omega
  · intro id l hl hlk
    have hm := hrefs _ (mem_lookup hlk)
    refine ⟨fun x hx => ih _ (hm x hx) (far _ hl x (hm x hx)), fun hpl loc a hla => ?_⟩
    refine plain_err (esc := true) n ?_ ?_
    · refine (every_or (fun _ _ => size_plainKids) (hpl.imp (fun h => h) fun h => h loc a hla)).mono fun e h => ?_
      exact ⟨h, .inr (.inl rfl)⟩
    · refine (far _ hl _ (hm _ hla)).imp (fun h => h) fun h => ?_
      omega
  · intro hl v hA x hx
    exact ih _ (hA.2.2 rfl x hx) (far _ hl x (hA.2.2 rfl x hx))
  · rintro a els rfl hs x hx
    obtain ⟨g, s⟩ := near x (List.mem_append_right _ hx)
    refine plain_err (esc := false) n ?_ (s.imp id fun s => by omega)
    have h1 := every_or (fun _ _ => size_plainKids) (hg.here.1.imp id fun h => h.2.2.2 hs x hx)
    have h2 := every_or (fun _ _ => size_plainKids) (hg.here.2.1.imp id fun h => h hs x hx)
    exact (h1.and h2).mono fun e h => ⟨h.1, h.2.imp id .inr⟩

theorem good_run (hL : E .fail ∨ Standard L) (hrefs : ∀ p ∈ d.refs, ∀ e ∈ valueEls p.2, Sound E d L rank S (rank (.ref p.1)) e) :
    ∀ (n k : Nat) {e : El}, Sound E d L rank S k e → (E .fuel ∨ sizeOf e + k * S ≤ n) →
      Run E (Held d (AttrGood E d L rank S)) (renderElement L n e)
  | 0, k, e, _, hn => by
    unfold renderElement
    refine Runs.error (hn.resolve_right fun h => ?_)
    have := size_pos e
    omega
  | n + 1, k, e, hg, hn => by
    refine step_run hL hrefs (fun k e => good_run hL hrefs n k) hg.1 (hg.2.imp id fun h x hx => ?_) (hn.imp id fun hn => ⟨?_, fun x hx => ?_⟩) ?_ ?_
    · have := size_kids hx; omega
    · have := size_pos e; omega
    · have := size_kids hx; omega
    · rintro name v rfl; exact good_decl hg
    · rintro a rfl; exact good_matter hg

end

end Verif.Rend
