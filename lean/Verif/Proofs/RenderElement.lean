import Verif.Proofs.RenderSections
/-!
The renderer writes well-formed fragments: the recursion.
-/
namespace Verif.Rend
open Verif.Html Verif.Tmpl

section
variable {R : Rules} {images : Bool} {L : Lib} (hL : LibOk R L)

/-! ### Plain text -/

theorem plainInline_markup {pl : El → Except Err Text} : ∀ {l : List El}, (∀ e ∈ l, ∀ t, pl e = .ok t → Markup R t) →
    ∀ t, plainInline pl l = .ok t → Markup R t
  | [], _, t, h => by cases h; exact .empty
  | e :: l, hl, t, h => by
    unfold plainInline at h
    cases h1 : pl e with
    | error x => rw [h1] at h; cases h
    | ok u =>
      cases h2 : plainInline pl l with
      | error x => rw [h1, h2] at h; cases h
      | ok w =>
        rw [h1, h2] at h
        cases h
        refine Markup.append ?_ (plainInline_markup (fun x hx => hl x (List.mem_cons_of_mem _ hx)) w h2)
        have := hl e (List.mem_cons_self ..) u h1
        split
        · exact markup_trimRight space_noTag this
        · exact this

theorem alt_plain {a : Attrs} (h : ∀ v, AMap.get a "alt" = some v → v = .nil ∨ ∃ t, v = .str t ∧ Plain t) :
    Plain (getStrD L.sprint a "alt" []) := by
  unfold getStrD
  cases hg : AMap.get a "alt" with
  | none => exact fun _ h => nomatch h
  | some v =>
    rcases h v hg with rfl | ⟨t, rfl, ht⟩
    · exact fun _ h => nomatch h
    · exact ht

theorem symbol_plain {n : Text} (h : (symbols.lookup n).isSome ∨ Plain n) : Plain ((symbols.lookup n).getD n) := by
  cases hs : symbols.lookup n with
  | none => exact h.elim (fun e => by rw [hs] at e; cases e) id
  | some t => exact (symbols_safe (R := Html.html) hs).1

theorem loc_plain {l : Loc} (h : LocOk Plain l) : Plain (locDisplay L [] l) := by
  obtain ⟨t, ht, e⟩ := locDisplay_of (L := L) h []
  intro c hc
  rcases e with e | e
  · rw [e, List.append_nil] at hc; exact ht c hc
  · rw [e, List.nil_append] at hc; exact ht c (List.mem_append_right _ hc)

theorem footnote_markup (i : Int) : Markup R ("<sup class=\"footnote\">[".toList ++ (toString i).toList ++ "]</sup>".toList) :=
  markup_within (s := ⟨.text, ["sup".toList]⟩) ⟨_, rfl⟩ (scan_rules (by decide +kernel)) (scan_rules (by decide +kernel))
    (int_safe (R := R) i).1.markup

theorem plain_markup {esc : Option (Text → Text)} (hesc : ∀ f, esc = some f → ∀ t, Plain (f t)) : ∀ (n : Nat) {e : El}, TextClean e →
    ∀ t, plain L esc n e = .ok t → Markup R t
  | 0, _, _, _, h => nomatch h
  | n + 1, e, he, t, h => by
    unfold plain at h
    cases he with
    | str hp => cases h; exact hp.markup
    | special =>
      dsimp only at h
      split at h
      · rename_i f; cases h; exact (hesc f rfl _).markup
      · cases h
    | symbol hs => cases h; exact (symbol_plain hs).markup
    | quoted hl => exact plainInline_markup (fun e he => plain_markup hesc n (hl e he)) t h
    | passthrough hl => exact plainInline_markup (fun e he => plain_markup hesc n (hl e he)) t h
    | icon ha => cases h; exact (alt_plain ha).markup
    | inlineImage ha => cases h; exact (alt_plain ha).markup
    | link h1 h2 h3 =>
      dsimp only at h
      split at h
      · rename_i l e; exact plainInline_markup (fun x hx => plain_markup hesc n (h1 l e x hx)) t h
      · rename_i u e; cases h; exact (h2 _ e).markup
      · cases h
        split
        · rename_i l; exact (loc_plain (h3 l rfl)).markup
        · exact .empty
    | footnoteRef =>
      dsimp only at h
      split at h
      · cases h
      · cases h; exact footnote_markup _
    | blankLine => cases h; exact (plain_lit (by decide)).markup

/-! ### Attribute values -/

theorem dispatch_value {re : El → M Text} {pl : Bool → El → Except Err Text} {e : El} (h : Simple R e) :
    Sat R images (Value R) (dispatch L re pl e) := by
  cases e with
  | str t =>
    refine renderStr_sat.mono fun u hu => ?_
    obtain ⟨b, rfl⟩ := hu
    intro c hc
    rcases mem_renderString hc with hc | hc
    · exact h.2 c hc
    · exact ⟨hc.2.2.1, hc.1, fun _ => hc.2.2.2⟩
  | special n => exact renderSpecial_sat.mono fun _ h => h.2
  | symbol n => exact renderSymbol_sat.mono fun _ h => h.2
  | predefined n => exact Sat.pure (predefined_value h)
  | _ => exact h.elim

/-! ### Paragraphs in lists -/

include hL in
theorem embedded_ne {re : El → M Text} {a : Attrs} {l : List El} {c c' : Ctx} {t : Text}
    (h : embeddedParagraph L re a l c = .ok (t, c')) : t ≠ [] := by
  unfold embeddedParagraph at h
  obtain ⟨u, c1, _, h⟩ := bind_ok h
  unfold exec at h
  rw [hL.tmpl] at h
  have e1 : (templatesOf R).embeddedParagraph = Html5.embeddedParagraphTmpl := by
    unfold templatesOf; split <;> rfl
  dsimp only at h
  rw [e1] at h
  generalize hw : Tm.render _ _ _ = r at h
  cases r with
  | some w =>
    obtain ⟨rfl, _⟩ := pure_ok h
    unfold Html5.embeddedParagraphTmpl at hw
    rw [Tm.render] at hw
    obtain ⟨z, _, rfl⟩ := Option.map_eq_some_iff.mp hw
    exact fun h => by cases h
  | none => cases h

include hL in
theorem dispatch_para {re : El → M Text} {pl : Bool → El → Except Err Text} {a : List (String × AV)} {l : List El} {c c' : Ctx} {t : Text}
    (hc : c.withinList > 0) (h : dispatch L re pl (.paragraph a l) c = .ok (t, c')) : t ≠ [] := by
  have h : renderParagraph L re pl a l c = .ok (t, c') := h
  unfold renderParagraph at h
  obtain ⟨x, c1, hx, h⟩ := bind_ok h
  cases hx
  rw [if_pos (Or.inr hc)] at h
  exact embedded_ne hL h

include hL in
/-- The renderer of elements, at every depth. -/
theorem within_all : ∀ n : Nat, Within R images (renderElement L n)
    (fun esc => plain L (if esc then some Escape.escapeString else none) n)
  | 0 => ⟨fun _ _ => Sat.error, fun _ _ => Sat.error, fun _ => Sat.error, fun _ _ _ _ h => (nomatch h), fun _ _ _ _ _ _ h => (nomatch h)⟩
  | n + 1 => by
    have hW := within_all n
    refine ⟨fun e he => dispatch_sat hL hW he, fun e he => dispatch_value he, fun t => renderStr_sat, fun b e he => ?_,
      fun a l c t c' hc h => dispatch_para hL hc h⟩
    refine plain_markup ?_ (n + 1) he
    intro f hf t
    cases b with
    | false => cases hf
    | true => cases hf; exact plain_escape t

end
end Verif.Rend
