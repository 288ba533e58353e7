import Verif.Proofs.RunsInline
/-!
The rendering of blocks, lists and tables runs (C53, C54, C55).
-/
namespace Verif.Rend
open Verif.Tmpl (Tm Templates html5 xhtml5)
open Verif (Text)

section
variable {E : Err → Prop} {d : Doc} {A : String → AV → Prop} {L : Lib} {re : El → M Text} {pl : Bool → El → Except Err Text}

theorem paragraphElements_run (hL : E .fail ∨ Standard L) {a : Attrs} {els : List El} (he : ∀ e ∈ els, Run E (Held d A) (re e)) :
    Run E (Held d A) (paragraphElements L re a els) := by
  unfold paragraphElements
  refine Runs.bind docAttrs_run fun _ _ => ?_
  extract_lets
  refine Runs.bind (renderAll_run he) fun _ _ => ?_
  split
  · refine Runs.bind (exec_runs hL (by filled)) fun _ _ => Run.pure
  · exact Run.pure

theorem regularParagraph_run (hL : E .fail ∨ Standard L) {a : Attrs} {els : List El} (ht : E .fail ∨ TitleOk a) (hr : E .fail ∨ RolesOk a)
    (ha : ∀ e ∈ attrEls a, Run E (Held d A) (re e)) (he : ∀ e ∈ els, Run E (Held d A) (re e)) :
    Run E (Held d A) (regularParagraph L re a els) := by
  unfold regularParagraph
  refine Runs.bind (paragraphElements_run hL he) fun _ _ => ?_
  refine Runs.bind (elementRoles_run hr ha) fun _ _ => ?_
  refine Runs.bind (elementTitle_run ht ha) fun _ _ => ?_
  exact exec_runs hL (by filled)

theorem manpageNameParagraph_run (hL : E .fail ∨ Standard L) {els : List El} (he : ∀ e ∈ els, Run E (Held d A) (re e)) :
    Run E (Held d A) (manpageNameParagraph L re els) := by
  unfold manpageNameParagraph
  refine Runs.bind (renderAll_run he) fun _ _ => ?_
  exact exec_runs hL (by filled)

theorem embeddedParagraph_run (hL : E .fail ∨ Standard L) {a : Attrs} {els : List El} (he : ∀ e ∈ els, Run E (Held d A) (re e)) :
    Run E (Held d A) (embeddedParagraph L re a els) := by
  unfold embeddedParagraph
  refine Runs.bind (renderAll_run he) fun _ _ => ?_
  exact exec_runs hL (by filled)

theorem exampleParagraph_run (hL : E .fail ∨ Standard L) {a : Attrs} {els : List El} (ht : E .fail ∨ TitleOk a) (hr : E .fail ∨ RolesOk a)
    (ha : ∀ e ∈ attrEls a, Run E (Held d A) (re e)) (he : ∀ e ∈ els, Run E (Held d A) (re e)) :
    Run E (Held d A) (exampleParagraph L re a els) := by
  unfold exampleParagraph
  refine Runs.bind (renderAll_run he) fun _ _ => ?_
  refine Runs.bind (elementRoles_run hr ha) fun _ _ => ?_
  refine Runs.bind (elementTitle_run ht ha) fun _ _ => ?_
  exact exec_runs hL (by filled)

theorem listingParagraph_run (hL : E .fail ∨ Standard L) {a : Attrs} {els : List El} (ht : E .fail ∨ TitleOk a) (hr : E .fail ∨ RolesOk a)
    (ha : ∀ e ∈ attrEls a, Run E (Held d A) (re e)) (he : ∀ e ∈ els, Run E (Held d A) (re e)) :
    Run E (Held d A) (listingParagraph L re a els) := by
  unfold listingParagraph
  refine Runs.bind (renderAll_run he) fun _ _ => ?_
  refine Runs.bind (elementRoles_run hr ha) fun _ _ => ?_
  refine Runs.bind (elementTitle_run ht ha) fun _ _ => ?_
  exact exec_runs hL (by filled)

/-! ### Source code -/

theorem split_kinds : ∀ {els line : List El}, (∀ e ∈ line, SourceKind e) → (∀ e ∈ els, SourceKind e) →
    ∀ l ∈ splitPerLine line els, ∀ e ∈ l, SourceKind e
  | [], line, hl, _, l, h, e, he => by
    unfold splitPerLine at h
    split at h
    · cases h
    · rw [List.mem_singleton] at h; subst h; exact hl e he
  | x :: els, line, hl, hx, l, h, e, he => by
    have hels := fun y hy => hx y (List.mem_cons_of_mem _ hy)
    have other : ∀ l ∈ splitPerLine (line ++ [x]) els, ∀ e ∈ l, SourceKind e :=
      split_kinds (fun e he => (List.mem_append.mp he).elim (hl e) fun he => by
        rw [List.mem_singleton] at he; subst he; exact hx _ (List.mem_cons_self ..)) hels
    unfold splitPerLine at h
    split at h
    · rename_i h'; cases h'
    · rename_i t l' h'; cases h'
      have hparts : ∀ p ∈ (splitNL t).map (fun s => if s.isEmpty then [] else [El.str s]), ∀ e ∈ p, SourceKind e := by
        intro p hp e he
        obtain ⟨s, _, rfl⟩ := List.mem_map.mp hp
        split at he
        · cases he
        · rw [List.mem_singleton] at he; subst he; trivial
      revert hparts h
      generalize (splitNL t).map (fun s => if s.isEmpty then [] else [El.str s]) = parts
      intro h hparts
      cases parts with
      | nil => exact split_kinds hl hels l h e he
      | cons p ps =>
        have hp : ∀ e ∈ line ++ p, SourceKind e := fun e he => (List.mem_append.mp he).elim (hl e) (hparts p (List.mem_cons_self ..) e)
        dsimp only at h
        cases hps : ps.getLast? with
        | none => rw [hps] at h; exact split_kinds hp hels l h e he
        | some q =>
          rw [hps] at h
          rcases List.mem_append.mp h with h | h
          · rcases List.mem_cons.mp h with rfl | h
            · exact hp e he
            · exact hparts l (List.mem_cons_of_mem _ (List.dropLast_subset ps h)) e he
          · exact split_kinds (hparts q (List.mem_cons_of_mem _ (List.mem_of_getLast? hps))) hels l h e he
    · rename_i h'; cases h'
      exact other l h e he

theorem sourceLine_run : ∀ {l : List El}, (E .fail ∨ ∀ e ∈ l, SourceKind e) → Run E (Held d A) (sourceLine l)
  | [], _ => Run.pure
  | e :: l, h => by
    have ih := sourceLine_run (l := l) (h.imp id fun h x hx => h x (List.mem_cons_of_mem _ hx))
    unfold sourceLine
    split
    · rename_i h'; cases h'
    · rename_i h'; cases h'; exact Runs.bind ih fun _ _ => Run.pure
    · rename_i h'; cases h'; exact Runs.bind ih fun _ _ => Run.pure
    · rename_i h'; cases h'; exact Runs.bind ih fun _ _ => Run.pure
    · rename_i h1 h2 h3 h'; cases h'
      refine Runs.error (h.resolve_right fun h => ?_)
      have := h e (List.mem_cons_self ..)
      cases e <;> simp_all [SourceKind]

theorem calloutsAll_run (hL : E .fail ∨ Standard L) : ∀ {l : List Int}, Run E (Held d A) (calloutsAll L l)
  | [] => Run.pure
  | r :: l => by
    unfold calloutsAll
    refine Runs.bind (renderCallout_run hL) fun _ _ => ?_
    exact Runs.bind (calloutsAll_run hL) fun _ _ => Run.pure

theorem sourceLines_run (hL : E .fail ∨ Standard L) {a : Attrs} (hh : E .fail ∨ ∀ doc i t, (L.highlight doc a i t).isSome) :
    ∀ {ls : List (List El)} {i : Nat}, (E .fail ∨ ∀ l ∈ ls, ∀ e ∈ l, SourceKind e) → Run E (Held d A) (sourceLines L a i ls)
  | [], _, _ => Run.pure
  | l :: ls, i, h => by
    unfold sourceLines
    refine Runs.bind (sourceLine_run (h.imp id fun h => h l (List.mem_cons_self ..))) fun tc _ => ?_
    refine Runs.bind docAttrs_run fun doc _ => ?_
    refine Runs.bind (P := fun _ => True) ?_ fun _ _ => ?_
    · unfold highlighted
      cases hx : L.highlight doc a i tc.1 with
      | some t => exact Run.pure
      | none => exact Runs.error (hh.resolve_right fun hh => by have := hh doc i tc.1; rw [hx] at this; cases this)
    refine Runs.bind (calloutsAll_run hL) fun _ _ => ?_
    exact Runs.bind (sourceLines_run hL hh (h.imp id fun h x hx => h x (List.mem_cons_of_mem _ hx))) fun _ _ => Run.pure

theorem sourceContent_run (hL : E .fail ∨ Standard L) {a : Attrs} {els : List El} (hs : E .fail ∨ SourceOk L a els)
    (he : ∀ e ∈ els, Run E (Held d A) (re e)) : Run E (Held d A) (sourceContent L re a els) := by
  unfold sourceContent
  refine Runs.bind docAttrs_run fun doc _ => ?_
  extract_lets
  refine Runs.bind (inBlock_run ?_) fun _ _ => Run.pure
  split
  · exact renderAll_run he
  · rename_i hn
    have hs' : E .fail ∨ (∀ e ∈ els, SourceKind e) ∧ ∀ doc i t, (L.highlight doc a i t).isSome :=
      hs.imp id fun hs => hs.resolve_left fun h => hn (.inl h)
    exact sourceLines_run hL (hs'.imp id And.right) (hs'.imp id fun h => split_kinds (fun _ h => nomatch h) h.1)

theorem sourceBlock_run (hL : E .fail ∨ Standard L) {a : Attrs} {els : List El} (ht : E .fail ∨ TitleOk a) (hr : E .fail ∨ RolesOk a)
    (hs : E .fail ∨ SourceOk L a els)
    (ha : ∀ e ∈ attrEls a, Run E (Held d A) (re e)) (he : ∀ e ∈ els, Run E (Held d A) (re e)) :
    Run E (Held d A) (sourceBlock L re a els) := by
  unfold sourceBlock
  refine Runs.bind (sourceContent_run hL hs he) fun _ _ => ?_
  refine Runs.bind (elementRoles_run hr ha) fun _ _ => ?_
  refine Runs.bind (elementTitle_run ht ha) fun _ _ => ?_
  exact exec_runs hL (by filled)

/-! ### Paragraphs -/

theorem verseParagraph_run (hL : E .fail ∨ Standard L) {a : Attrs} {els : List El} (ht : E .fail ∨ TitleOk a)
    (ha : ∀ e ∈ attrEls a, Run E (Held d A) (re e)) (hp : ∀ e ∈ els, ∀ x, pl false e = .error x → E x) :
    Run E (Held d A) (verseParagraph L re pl a els) := by
  unfold verseParagraph
  refine Runs.bind (Runs.lift (P := fun _ => True) (plainAll_err hp) fun _ _ => trivial) fun _ _ => ?_
  refine Runs.bind (elementTitle_run ht ha) fun _ _ => ?_
  exact exec_runs hL (by filled)

theorem quoteParagraph_run (hL : E .fail ∨ Standard L) {a : Attrs} {els : List El} (ht : E .fail ∨ TitleOk a)
    (ha : ∀ e ∈ attrEls a, Run E (Held d A) (re e)) (he : ∀ e ∈ els, Run E (Held d A) (re e)) :
    Run E (Held d A) (quoteParagraph L re a els) := by
  unfold quoteParagraph
  refine Runs.bind (paragraphElements_run hL he) fun _ _ => ?_
  refine Runs.bind (elementTitle_run ht ha) fun _ _ => ?_
  exact exec_runs hL (by filled)

theorem admonitionParagraph_run (hL : E .fail ∨ Standard L) (hA : E .fail ∨ ∀ k v, A k v → DocAttrOk L d k v) {a : Attrs} {els : List El}
    (hst : (getStr a "style").isSome) (ht : E .fail ∨ TitleOk a) (hr : E .fail ∨ RolesOk a)
    (ha : ∀ e ∈ attrEls a, Run E (Held d A) (re e)) (he : ∀ e ∈ els, Run E (Held d A) (re e)) :
    Run E (Held d A) (admonitionParagraph L re a els) := by
  unfold admonitionParagraph
  cases hs : getStr a "style" with
  | none => rw [hs] at hst; cases hst
  | some k =>
    dsimp only
    refine Runs.bind (renderIcon_run hL hA) fun _ _ => ?_
    refine Runs.bind (paragraphElements_run hL he) fun _ _ => ?_
    refine Runs.bind (elementRoles_run hr ha) fun _ _ => ?_
    refine Runs.bind (elementTitle_run ht ha) fun _ _ => ?_
    exact exec_runs hL (by filled)

theorem literalParagraph_run (hL : E .fail ∨ Standard L) {a : Attrs} {els : List El} (ht : E .fail ∨ TitleOk a) (hr : E .fail ∨ RolesOk a)
    (ha : ∀ e ∈ attrEls a, Run E (Held d A) (re e)) (he : ∀ e ∈ els, Run E (Held d A) (re e)) :
    Run E (Held d A) (literalParagraph L re a els) := by
  unfold literalParagraph
  refine Runs.bind (renderAll_run he) fun _ _ => ?_
  extract_lets
  refine Runs.bind (elementRoles_run hr ha) fun _ _ => ?_
  refine Runs.bind (elementTitle_run ht ha) fun _ _ => ?_
  exact exec_runs hL (by filled)

theorem passthroughParagraph_run {els : List El} (he : ∀ e ∈ els, Run E (Held d A) (re e)) :
    Run E (Held d A) (passthroughParagraph re els) := Runs.bind (passthroughContent_run he) fun _ _ => Run.pure

theorem renderParagraph_run (hL : E .fail ∨ Standard L) (hA : E .fail ∨ ∀ k v, A k v → DocAttrOk L d k v) {a : Attrs} {els : List El}
    (ht : E .fail ∨ TitleOk a) (hr : E .fail ∨ RolesOk a)
    (hs : getStr a "style" = some "source".toList → E .fail ∨ SourceOk L a els)
    (ha : ∀ e ∈ attrEls a, Run E (Held d A) (re e)) (he : ∀ e ∈ els, Run E (Held d A) (re e))
    (hp : getStr a "style" = some "verse".toList → ∀ e ∈ els, ∀ x, pl false e = .error x → E x) :
    Run E (Held d A) (renderParagraph L re pl a els) := by
  unfold renderParagraph
  refine Runs.bind Runs.get fun c _ => ?_
  by_cases h : c.within = true ∨ c.withinList > 0
  · rw [if_pos h]; exact embeddedParagraph_run hL he
  rw [if_neg h]
  extract_lets
  by_cases h : getStr a "style" = some "example".toList
  · rw [if_pos h]; exact exampleParagraph_run hL ht hr ha he
  rw [if_neg h]
  by_cases h : getStr a "style" = some "listing".toList
  · rw [if_pos h]; exact listingParagraph_run hL ht hr ha he
  rw [if_neg h]
  by_cases h : getStr a "style" = some "source".toList
  · rw [if_pos h]; exact sourceBlock_run hL ht hr (hs h) ha he
  rw [if_neg h]
  by_cases h : getStr a "style" = some "verse".toList
  · rw [if_pos h]; exact verseParagraph_run hL ht ha (hp h)
  rw [if_neg h]
  by_cases h : getStr a "style" = some "quote".toList
  · rw [if_pos h]; exact quoteParagraph_run hL ht ha he
  rw [if_neg h]
  by_cases h : getStr a "style" = some "pass".toList
  · rw [if_pos h]; exact passthroughParagraph_run he
  rw [if_neg h]
  by_cases h : getStr a "style" = some "manpage".toList
  · rw [if_pos h]; exact manpageNameParagraph_run hL he
  rw [if_neg h]
  by_cases h : getStr a "style" = some "TIP".toList ∨ getStr a "style" = some "NOTE".toList ∨ getStr a "style" = some "IMPORTANT".toList ∨
        getStr a "style" = some "WARNING".toList ∨ getStr a "style" = some "CAUTION".toList
  · rw [if_pos h]
    refine admonitionParagraph_run hL hA ?_ ht hr ha he
    rcases h with h | h | h | h | h <;> rw [h] <;> rfl
  rw [if_neg h]
  by_cases h : getStr a "style" = some "literal_paragraph".toList ∨ getStr a "style" = some "literal".toList
  · rw [if_pos h]; exact literalParagraph_run hL ht hr ha he
  rw [if_neg h]
  exact regularParagraph_run hL ht hr ha he

/-! ### Blocks -/

theorem renderBlock_run (hL : E .fail ∨ Standard L) (hA : E .fail ∨ ∀ k v, A k v → DocAttrOk L d k v) {k : BlockKind} {a : Attrs}
    {els : List El} (hk : E .fail ∨ k ≠ .other) (ht : E .fail ∨ TitleOk a) (hr : E .fail ∨ RolesOk a)
    (hs : k = .listing → getStr a "style" = some "source".toList → E .fail ∨ SourceOk L a els)
    (ha : ∀ e ∈ attrEls a, Run E (Held d A) (re e)) (he : ∀ e ∈ els, Run E (Held d A) (re e)) :
    Run E (Held d A) (renderBlock L re k a els) := by
  have h1 := renderAll_run (E := E) (d := d) (A := A) he
  have h2 := elementRoles_run (E := E) (d := d) (A := A) hr ha
  have h3 := elementTitle_run (E := E) (d := d) (A := A) ht ha
  unfold renderBlock
  cases k with
  | other => exact Runs.error (hk.resolve_right fun h => h rfl)
  | «example» =>
    dsimp only
    split
    · unfold admonitionBlock
      extract_lets
      refine Runs.bind (renderIcon_run hL hA) fun _ _ => ?_
      exact Runs.bind h1 fun _ _ => Runs.bind h2 fun _ _ => Runs.bind h3 fun _ _ => exec_runs hL (by filled)
    · unfold exampleBlock
      exact Runs.bind h1 fun _ _ => Runs.bind h2 fun _ _ => Runs.bind caption_run fun _ _ => Runs.bind h3 fun _ _ => exec_runs hL (by filled)
  | fenced =>
    unfold fencedBlock
    exact inBlock_run <| Runs.bind h1 fun _ _ => Runs.bind h2 fun _ _ => Runs.bind h3 fun _ _ => exec_runs hL (by filled)
  | literal =>
    unfold literalBlock
    exact Runs.bind h1 fun _ _ => Runs.bind h2 fun _ _ => Runs.bind h3 fun _ _ => exec_runs hL (by filled)
  | listing =>
    unfold listingBlock
    by_cases h : getStr a "style" = some "source".toList
    · dsimp only; rw [if_pos h]; exact sourceBlock_run hL ht hr (hs rfl h) ha he
    · dsimp only; rw [if_neg h]
      exact inBlock_run <| Runs.bind h1 fun _ _ => Runs.bind h2 fun _ _ => Runs.bind h3 fun _ _ => exec_runs hL (by filled)
  | markdownQuote =>
    unfold markdownQuoteBlock
    exact Runs.bind h1 fun _ _ => Runs.bind h2 fun _ _ => Runs.bind h3 fun _ _ => exec_runs hL (by filled)
  | pass =>
    unfold passthroughBlock
    exact inBlock_run <| Runs.bind h1 fun _ _ => Runs.bind h2 fun _ _ => exec_runs hL (by filled)
  | quote =>
    unfold quoteBlock
    exact Runs.bind h1 fun _ _ => Runs.bind h2 fun _ _ => Runs.bind h3 fun _ _ => exec_runs hL (by filled)
  | verse =>
    unfold verseBlock
    exact Runs.bind h2 fun _ _ => inBlock_run <| Runs.bind h1 fun _ _ => Runs.bind h3 fun _ _ => exec_runs hL (by filled)
  | sidebar =>
    unfold sidebarBlock
    exact Runs.bind h1 fun _ _ => Runs.bind h2 fun _ _ => Runs.bind h3 fun _ _ => exec_runs hL (by filled)
  | «open» =>
    unfold openBlock
    exact Runs.bind h1 fun _ _ => Runs.bind h2 fun _ _ => Runs.bind h3 fun _ _ => exec_runs hL (by filled)

/-! ### Lists -/

theorem orderedItems_run (hL : E .fail ∨ Standard L) : ∀ {items : List Item}, (E .fail ∨ ∀ i ∈ items, i.kind = .ordered) →
    (∀ i ∈ items, ∀ e ∈ i.els, Run E (Held d A) (re e)) → Run E (Held d A) (orderedItems L re items)
  | [], _, _ => Run.pure
  | i :: l, h, he => by
    unfold orderedItems
    split
    · refine Runs.bind (renderListElements_run (he i (List.mem_cons_self ..))) fun _ _ => ?_
      refine Runs.bind (exec_runs hL (by filled)) fun _ _ => ?_
      exact Runs.bind (orderedItems_run hL (h.imp id fun h x hx => h x (List.mem_cons_of_mem _ hx))
        fun x hx => he x (List.mem_cons_of_mem _ hx)) fun _ _ => Run.pure
    · rename_i hn; exact Runs.error (h.resolve_right fun h => hn (h i (List.mem_cons_self ..)))

theorem unorderedItems_run (hL : E .fail ∨ Standard L) : ∀ {items : List Item},
    (∀ i ∈ items, ∀ e ∈ i.els, Run E (Held d A) (re e)) → Run E (Held d A) (unorderedItems L re items)
  | [], _ => Run.pure
  | i :: l, he => by
    unfold unorderedItems
    refine Runs.bind (renderListElements_run (he i (List.mem_cons_self ..))) fun _ _ => ?_
    refine Runs.bind (exec_runs hL (by filled)) fun _ _ => ?_
    exact Runs.bind (unorderedItems_run hL fun x hx => he x (List.mem_cons_of_mem _ hx)) fun _ _ => Run.pure

theorem labeledItems_run (hL : E .fail ∨ Standard L) {tm : Templates → Tm}
    (htm : totals [("Term", .str), ("Content", .str), ("Continuation", .flag)] tm = true) :
    ∀ {items : List Item} {cont : Bool}, (E .fail ∨ ∀ i ∈ items, i.kind = .labeled) →
    (∀ i ∈ items, ∀ e ∈ i.term ++ i.els, Run E (Held d A) (re e)) → Run E (Held d A) (labeledItems L re tm cont items)
  | [], _, _, _ => Run.pure
  | i :: l, cont, h, he => by
    have hi := he i (List.mem_cons_self ..)
    unfold labeledItems
    split
    · refine Runs.bind (renderInline_run fun e h => hi e (List.mem_append_left _ h)) fun _ _ => ?_
      refine Runs.bind (renderListElements_run fun e h => hi e (List.mem_append_right _ h)) fun _ _ => ?_
      refine Runs.bind (exec_runs hL htm) fun _ _ => ?_
      exact Runs.bind (labeledItems_run hL htm (h.imp id fun h x hx => h x (List.mem_cons_of_mem _ hx))
        fun x hx => he x (List.mem_cons_of_mem _ hx)) fun _ _ => Run.pure
    · rename_i hn; exact Runs.error (h.resolve_right fun h => hn (h i (List.mem_cons_self ..)))

theorem calloutItems_run (hL : E .fail ∨ Standard L) : ∀ {items : List Item}, (E .fail ∨ ∀ i ∈ items, i.kind = .callout) →
    (∀ i ∈ items, ∀ e ∈ i.els, Run E (Held d A) (re e)) → Run E (Held d A) (calloutItems L re items)
  | [], _, _ => Run.pure
  | i :: l, h, he => by
    unfold calloutItems
    split
    · refine Runs.bind (renderListElements_run (he i (List.mem_cons_self ..))) fun _ _ => ?_
      refine Runs.bind (exec_runs hL (by filled)) fun _ _ => ?_
      exact Runs.bind (calloutItems_run hL (h.imp id fun h x hx => h x (List.mem_cons_of_mem _ hx))
        fun x hx => he x (List.mem_cons_of_mem _ hx)) fun _ _ => Run.pure
    · rename_i hn; exact Runs.error (h.resolve_right fun h => hn (h i (List.mem_cons_self ..)))

theorem numberingStyle_run {a : Attrs} {items : List Item} (h : E .fail ∨ ∀ i ∈ items, i.kind = .ordered)
    (hp : E .panic ∨ (items ≠ [] ∨ (getStr a "style").isSome)) : Run E (Held d A) (numberingStyle a items) := by
  unfold numberingStyle
  split
  · exact Run.pure
  · rename_i hn
    cases items with
    | nil =>
      refine Runs.error (hp.resolve_right ?_)
      rintro (h | h)
      · exact h rfl
      · rw [hn] at h; cases h
    | cons i l =>
      dsimp only
      split
      · exact Run.pure
      · rename_i hk; exact Runs.error (h.resolve_right fun h => hk (h i (List.mem_cons_self ..)))

theorem renderList_run (hL : E .fail ∨ Standard L) {k : ListKind} {a : Attrs} {items : List Item}
    (ht : E .fail ∨ TitleOk a) (hr : E .fail ∨ RolesOk a) (hk : E .fail ∨ ListOk k a items)
    (hp : E .panic ∨ (k = .ordered → items ≠ [] ∨ (getStr a "style").isSome))
    (ha : ∀ e ∈ attrEls a, Run E (Held d A) (re e)) (he : ∀ i ∈ items, ∀ e ∈ i.term ++ i.els, Run E (Held d A) (re e)) :
    Run E (Held d A) (renderList L re k a items) := by
  have h2 := elementRoles_run (E := E) (d := d) (A := A) hr ha
  have h3 := elementTitle_run (E := E) (d := d) (A := A) ht ha
  have he' : ∀ i ∈ items, ∀ e ∈ i.els, Run E (Held d A) (re e) := fun i hi e h => he i hi e (List.mem_append_right _ h)
  unfold renderList
  cases k with
  | other => exact Runs.error (hk.resolve_right fun h => h)
  | ordered =>
    unfold orderedList
    exact Runs.bind (orderedItems_run hL hk he') fun _ _ => Runs.bind h2 fun _ _ =>
      Runs.bind (numberingStyle_run hk (hp.imp id fun h => h rfl)) fun _ _ => Runs.bind h3 fun _ _ => exec_runs hL (by filled)
  | unordered =>
    unfold unorderedList
    refine Runs.bind (P := fun _ => True) ?_ fun _ _ => Runs.bind (unorderedItems_run hL he') fun _ _ => Runs.bind h2 fun _ _ =>
      Runs.bind h3 fun _ _ => exec_runs hL (by filled)
    unfold isCheckList
    split
    · exact Run.pure
    · split
      · exact Run.pure
      · rename_i hn; exact Runs.error (hk.resolve_right fun h => hn (h _ rfl))
  | labeled =>
    have hi := hk.imp id And.left
    unfold labeledList
    dsimp only
    cases hs : AMap.get a "style" with
    | none =>
      unfold labeledListWith
      exact Runs.bind (labeledItems_run hL (by decide +kernel) hi he) fun _ _ => Runs.bind h2 fun _ _ =>
        Runs.bind h3 fun _ _ => exec_runs hL (by filled)
    | some v =>
      have hv : E .fail ∨ (v = .str "qanda".toList ∨ v = .str "horizontal".toList) := hk.imp id fun h => h.2 v hs
      split
      · rename_i t e
        cases e
        split
        · unfold labeledListWith
          exact Runs.bind (labeledItems_run hL (by decide +kernel) hi he) fun _ _ => Runs.bind h2 fun _ _ =>
            Runs.bind h3 fun _ _ => exec_runs hL (by filled)
        split
        · unfold labeledListWith
          exact Runs.bind (labeledItems_run hL (by decide +kernel) hi he) fun _ _ => Runs.bind h2 fun _ _ =>
            Runs.bind h3 fun _ _ => exec_runs hL (by filled)
        · rename_i n1 n2
          refine Runs.error (hv.resolve_right ?_)
          rintro (h | h) <;> injection h <;> contradiction
      · rename_i w n e
        cases e
        refine Runs.error (hv.resolve_right ?_)
        rintro (h | h)
        · exact n _ h
        · exact n _ h
      · rename_i e; cases e
  | callout =>
    unfold calloutList
    exact Runs.bind (calloutItems_run hL hk he') fun _ _ => Runs.bind h2 fun _ _ => Runs.bind h3 fun _ _ => exec_runs hL (by filled)

/-! ### Tables -/

theorem colsOf_run : ∀ {l : List (Option Col)}, (E .fail ∨ none ∉ l) →
    Runs E (Held d A) (fun r => r.length = (l.map fun c => match c with | some c => c.multiplier | none => 0).sum) (colsOf l)
  | [], _ => Runs.pure rfl
  | none :: l, h => Runs.error (h.resolve_right fun h => h (List.mem_cons_self ..))
  | some c :: l, h => by
    unfold colsOf
    refine Runs.bind (colsOf_run (l := l) (h.imp id fun h h' => h (List.mem_cons_of_mem _ h'))) fun r hr => ?_
    refine Runs.pure ?_
    rw [List.length_append, List.length_replicate, hr]
    rfl

theorem columns_run {a : Attrs} {rows : List (List (List El))} (h : E .fail ∨ ColsOk (AMap.get a "cols")) :
    Runs E (Held d A) (fun r => r.length = columnCount a rows) (columns a rows) := by
  unfold columns
  refine Runs.bind (P := fun r => r.length = colsCount (AMap.get a "cols")) ?_ fun r hr => ?_
  · unfold colsAttr
    split
    · rename_i l hl
      rw [hl] at h ⊢
      exact colsOf_run h
    · rename_i hl; rw [hl]; exact Runs.pure rfl
    · rename_i l n hl
      rw [hl] at h
      exact Runs.error (h.resolve_right fun h => n h)
    · rename_i n1 n2 n3
      refine Runs.pure ?_
      unfold colsCount
      split
      · rename_i l hl; exact absurd hl (n1 l)
      · rfl
  · refine Runs.pure ?_
    rw [List.length_append, List.length_replicate, hr]
    unfold columnCount
    omega

theorem headCells_run (hL : E .fail ∨ Standard L) {tm : Templates → Tm}
    (htm : totals [("HAlign", .str), ("VAlign", .str), ("Content", .str)] tm = true) {cols : List Col} :
    ∀ {cells : List (List El)} {i : Nat}, (E .panic ∨ (cols.length = 0 → cells = [])) →
    (E .fail ∨ ∀ c ∈ cells, ∃ a els, c = [.paragraph a els]) →
    (∀ a els, [.paragraph a els] ∈ cells → ∀ e ∈ els, Run E (Held d A) (re e)) → Run E (Held d A) (headCells L re tm cols i cells)
  | [], _, _, _, _ => Run.pure
  | c :: l, i, hp, hf, he => by
    unfold headCells
    split
    · rename_i hn
      refine Runs.error (hp.resolve_right fun h => ?_)
      rw [List.getElem?_eq_none_iff] at hn
      by_cases h0 : cols.length = 0
      · cases h h0
      · have := Nat.mod_lt i (Nat.pos_of_ne_zero h0); omega
    · refine Runs.bind (P := fun _ => True) ?_ fun _ _ => ?_
      · unfold headCell
        split
        · refine Runs.bind (renderInline_run (he _ _ (List.mem_cons_self ..))) fun _ _ => ?_
          exact exec_runs hL htm
        · rename_i n
          refine Runs.error (hf.resolve_right fun hf => ?_)
          obtain ⟨a, els, e⟩ := hf c (List.mem_cons_self ..)
          exact n a els e
      · refine Runs.bind (headCells_run hL htm ?_ (hf.imp id fun h x hx => h x (List.mem_cons_of_mem _ hx))
          fun a els h => he a els (List.mem_cons_of_mem _ h)) fun _ _ => Run.pure
        refine hp.imp id fun h h0 => ?_
        cases h h0

theorem headRow_run (hL : E .fail ∨ Standard L) {rowTm cellTm : Templates → Tm} (hrow : totals [("Content", .str)] rowTm = true)
    (htm : totals [("HAlign", .str), ("VAlign", .str), ("Content", .str)] cellTm = true) {cols : List Col} {cells : Option (List (List El))}
    (hp : E .panic ∨ (cols.length = 0 → cells.getD [] = [])) (hf : E .fail ∨ HeadOk' cells)
    (he : ∀ a els, [.paragraph a els] ∈ cells.getD [] → ∀ e ∈ els, Run E (Held d A) (re e)) :
    Run E (Held d A) (headRow L re rowTm cellTm cols cells) := by
  unfold headRow
  cases cells with
  | none => exact Run.pure
  | some cells =>
    dsimp only
    refine Runs.bind (headCells_run hL htm hp hf he) fun _ _ => ?_
    exact exec_runs hL hrow

/-- What must hold of an element of a cell. -/
def CellRun (E : Err → Prop) (I : Ctx → Prop) (re : El → M Text) (e : El) : Prop :=
  Run E I (re e) ∧ ∀ a els, e = .paragraph a els →
    (E .fail ∨ TitleOk a) ∧ (∀ e ∈ attrEls a, Run E I (re e)) ∧ ∀ e ∈ els, Run E I (re e)

theorem cellBlock_run (hL : E .fail ∨ Standard L) {e : El} (h : CellRun E (Held d A) re e) : Run E (Held d A) (cellBlock L re e) := by
  unfold cellBlock
  split
  · rename_i a els
    obtain ⟨h1, h2, h3⟩ := h.2 _ _ rfl
    refine Runs.bind (renderAll_run h3) fun _ _ => ?_
    refine Runs.bind (elementTitle_run h1 h2) fun _ _ => ?_
    exact Runs.bind (exec_runs hL (by filled)) fun _ _ => Run.pure
  · refine Runs.bind h.1 fun _ _ => ?_
    exact exec_runs hL (by filled)

theorem cellBlocks_run (hL : E .fail ∨ Standard L) : ∀ {l : List El}, (∀ e ∈ l, CellRun E (Held d A) re e) →
    Run E (Held d A) (cellBlocks L re l)
  | [], _ => Run.pure
  | e :: l, h => by
    unfold cellBlocks
    refine Runs.bind (cellBlock_run hL (h e (List.mem_cons_self ..))) fun _ _ => ?_
    exact Runs.bind (cellBlocks_run hL fun x hx => h x (List.mem_cons_of_mem _ hx)) fun _ _ => Run.pure

theorem tableCell_run (hL : E .fail ∨ Standard L) {l : List El} {col : Col} (h : ∀ e ∈ l, CellRun E (Held d A) re e) :
    Run E (Held d A) (tableCell L re l col) := by
  unfold tableCell
  refine Runs.bind (cellBlocks_run hL h) fun _ _ => ?_
  extract_lets
  rename_i env
  have hs : sigOf env = [("Content", .str), ("HAlign", .str), ("VAlign", .str)] := rfl
  split
  · exact exec_runs hL (by rw [hs]; decide +kernel)
  · exact exec_runs hL (by rw [hs]; decide +kernel)

theorem rowCells_run (hL : E .fail ∨ Standard L) {cols : List Col} : ∀ {row : List (List El)} {i : Nat},
    (E .panic ∨ i + row.length ≤ cols.length) → (∀ c ∈ row, ∀ e ∈ c, CellRun E (Held d A) re e) →
    Run E (Held d A) (rowCells L re cols i row)
  | [], _, _, _ => Run.pure
  | c :: l, i, hp, h => by
    unfold rowCells
    split
    · rename_i hn
      refine Runs.error (hp.resolve_right fun h => ?_)
      rw [List.getElem?_eq_none_iff] at hn
      rw [List.length_cons] at h
      omega
    · refine Runs.bind (tableCell_run hL (h c (List.mem_cons_self ..))) fun _ _ => ?_
      refine Runs.bind (rowCells_run hL (hp.imp id fun h => ?_) fun x hx => h x (List.mem_cons_of_mem _ hx)) fun _ _ => Run.pure
      rw [List.length_cons] at h
      omega

theorem tableRows_run (hL : E .fail ∨ Standard L) {cols : List Col} : ∀ {rows : List (List (List El))},
    (E .panic ∨ ∀ r ∈ rows, r.length ≤ cols.length) → (∀ r ∈ rows, ∀ c ∈ r, ∀ e ∈ c, CellRun E (Held d A) re e) →
    Run E (Held d A) (tableRows L re cols rows)
  | [], _, _ => Run.pure
  | r :: l, hp, h => by
    unfold tableRows
    refine Runs.bind (rowCells_run hL (hp.imp id fun h => by have := h r (List.mem_cons_self ..); omega) (h r (List.mem_cons_self ..))) fun _ _ => ?_
    refine Runs.bind (exec_runs hL (by filled)) fun _ _ => ?_
    exact Runs.bind (tableRows_run hL (hp.imp id fun h x hx => h x (List.mem_cons_of_mem _ hx))
      fun x hx => h x (List.mem_cons_of_mem _ hx)) fun _ _ => Run.pure

theorem renderTable_run (hL : E .fail ∨ Standard L) {a : Attrs} {header footer : Option (List (List El))} {rows : List (List (List El))}
    (ht : E .fail ∨ TitleOk a) (hr : E .fail ∨ RolesOk a) (hc : E .fail ∨ ColsOk (AMap.get a "cols"))
    (hh : E .fail ∨ HeadOk' header) (hf : E .fail ∨ HeadOk' footer)
    (hp : E .panic ∨ (∀ r ∈ rows, r.length ≤ columnCount a rows) ∧ (columnCount a rows = 0 → header.getD [] = [] ∧ footer.getD [] = []))
    (ha : ∀ e ∈ attrEls a, Run E (Held d A) (re e))
    (heh : ∀ a els, [.paragraph a els] ∈ header.getD [] → ∀ e ∈ els, Run E (Held d A) (re e))
    (hef : ∀ a els, [.paragraph a els] ∈ footer.getD [] → ∀ e ∈ els, Run E (Held d A) (re e))
    (her : ∀ r ∈ rows, ∀ c ∈ r, ∀ e ∈ c, CellRun E (Held d A) re e) :
    Run E (Held d A) (renderTable L re a header rows footer) := by
  unfold renderTable
  extract_lets
  refine Runs.bind optCaption_run fun _ _ => ?_
  refine Runs.bind (columns_run hc) fun cols hcols => ?_
  refine Runs.bind (headRow_run hL (by decide +kernel) (by decide +kernel) ?_ hh heh) fun _ _ => ?_
  · exact hp.imp id fun h h0 => (h.2 (hcols ▸ h0)).1
  refine Runs.bind (headRow_run hL (by decide +kernel) (by decide +kernel) ?_ hf hef) fun _ _ => ?_
  · exact hp.imp id fun h h0 => (h.2 (hcols ▸ h0)).2
  refine Runs.bind (P := fun _ => True) ?_ fun _ _ => ?_
  · unfold tableBody
    refine Runs.bind (tableRows_run hL (hp.imp id fun h => by rw [hcols]; exact h.1) her) fun _ _ => ?_
    exact exec_runs hL (by filled)
  refine Runs.bind (elementRoles_run hr ha) fun _ _ => ?_
  refine Runs.bind (elementTitle_run ht ha) fun _ _ => ?_
  exact exec_runs hL (by filled)

end

end Verif.Rend
