import Verif.Props.WovenRefs

/-!
# C70 — References to sections: by identifier, and by title

`C69.text_to_page` says what is shown for all references (`Woven.view`). Here: what this means for references to sections.
-/
namespace Verif
namespace C70
open Sectioned Woven
open Inlined (Piece)

/-- Sections have different identifiers. -/
theorem found (alnum : Char → Bool) : ∀ (xs : List Item) (used : List Text), ∀ s ∈ (named alnum used xs).filterMap Outlined.titleOf,
    ((named alnum used xs).filterMap Outlined.titleOf).find? (fun x => x.2 == s.2) = some s
  | [], _, _, h => nomatch h
  | .block _ :: xs, used, s, h => found alnum xs used s h
  | .list _ _ :: xs, used, s, h => found alnum xs used s h
  | .heading hd :: xs, used, s, h => by
    have e : (named alnum used (.heading hd :: xs)).filterMap Outlined.titleOf =
      (hd, free used (anchor alnum hd.title)) :: (named alnum (free used (anchor alnum hd.title) :: used) xs).filterMap Outlined.titleOf := rfl
    rw [e] at h ⊢
    rcases List.mem_cons.mp h with rfl | h
    · rw [List.find?_cons_of_pos]; exact beq_self_eq_true _
    · rw [List.find?_cons_of_neg]
      · exact found alnum xs _ s h
      · intro he
        refine C68.titles_named alnum xs _ s h ?_
        rw [← eq_of_beq he]
        exact List.mem_cons_self

theorem section_id {alnum : Char → Bool} : ∀ {xs : List Item} {used : List Text} {s : Heading × Text}, s ∈ (named alnum used xs).filterMap Outlined.titleOf →
    ∃ used', s.2 = free used' (anchor alnum s.1.title)
  | .block _ :: xs, used, s, h => section_id (xs := xs) (used := used) (s := s) h
  | .list _ _ :: xs, used, s, h => section_id (xs := xs) (used := used) (s := s) h
  | .heading hd :: xs, used, s, h => by
    rcases List.mem_cons.mp (show s ∈ (hd, free used (anchor alnum hd.title)) :: (named alnum (free used (anchor alnum hd.title) :: used) xs).filterMap Outlined.titleOf from h) with rfl | h
    · exact ⟨used, rfl⟩
    · exact section_id (xs := xs) h

/-- Identifiers of sections do not contain spaces. -/
theorem no_space {alnum : Char → Bool} (hb : alnum ' ' = false) {xs : List Item} {s : Heading × Text} (h : s ∈ sections alnum xs) : ' ' ∉ s.2 := by
  obtain ⟨used, e⟩ := section_id h
  rw [e]
  intro hm
  rcases C63.free_chars hm with h | h | h
  · revert h; decide
  · rw [hb] at h; cases h
  · revert h; decide

section
variable {lower : Text → Text} {alnum : Char → Bool} {u : Bool} {xs : List Item}

/-- **C70**: a reference to the identifier of a section is a link to this section that shows its title. -/
theorem by_identifier (hb : alnum ' ' = false) {h : Heading} {id : Text} (hs : (h, id) ∈ sections alnum xs) :
    Piece.html (view lower alnum u xs) (.ref id none) = "<a href=\"#".toList ++ lower id ++ "\">".toList ++ h.title.flatMap (Prose.char u) ++ "</a>".toList := by
  have ht : target alnum xs id = id := if_neg (fun hc => no_space hb hs hc.1)
  have hl : label alnum u xs id = h.title.flatMap (Prose.char u) := by
    unfold label
    have := found alnum xs [] (h, id) hs
    rw [show (sections alnum xs).find? (fun s => s.2 == id) = some (h, id) from this]
  show Inlined.link _ (target alnum xs id) (label alnum u xs (target alnum xs id)) = _
  rw [ht, hl]
  rfl

/-- The first section with a title has the identifier that is made of it. -/
theorem first_anchor (used : List Text) (base : Text) (h : base ∉ used) : free used base = base := by
  unfold free
  rw [List.range_succ_eq_map, List.map_cons, List.find?_cons_of_pos]
  · rfl
  · show (!used.contains base) = true
    rw [show used.contains base = false by simpa using h]
    rfl

/-- **C70**: so is a reference to a title of more than one word, if this is the section with the identifier made of it; this holds for the first section with the title
(`first_anchor`). -/
theorem by_title {h : Heading} (hs : (h, anchor alnum h.title) ∈ sections alnum xs) (hw : ' ' ∈ h.title) :
    Piece.html (view lower alnum u xs) (.ref h.title none) =
      "<a href=\"#".toList ++ lower (anchor alnum h.title) ++ "\">".toList ++ h.title.flatMap (Prose.char u) ++ "</a>".toList := by
  have ht : target alnum xs h.title = anchor alnum h.title := if_pos ⟨hw, fun hn => by rw [hn] at hs; cases hs⟩
  have hl : label alnum u xs (anchor alnum h.title) = h.title.flatMap (Prose.char u) := by
    unfold label
    have := found alnum xs [] (h, anchor alnum h.title) hs
    rw [show (sections alnum xs).find? (fun s => s.2 == anchor alnum h.title) = some (h, anchor alnum h.title) from this]
  show Inlined.link _ (target alnum xs h.title) (label alnum u xs (target alnum xs h.title)) = _
  rw [ht, hl]
  rfl

/-- **C70**: with a label, the link shows this instead of the title. -/
theorem with_label (hb : alnum ' ' = false) {h : Heading} {id : Text} (hs : (h, id) ∈ sections alnum xs) (l : Text) :
    Piece.html (view lower alnum u xs) (.ref id (some l)) = "<a href=\"#".toList ++ lower id ++ "\">".toList ++ l ++ "</a>".toList := by
  have ht : target alnum xs id = id := if_neg (fun hc => no_space hb hs hc.1)
  show Inlined.link _ (target alnum xs id) l = _
  rw [ht]
  rfl

/-- And the link leads to the section: this is the identifier in its title. -/
theorem leads (h : Heading) (id : Text) (t : Text) : ∃ r, sectionHtml lower u h id t =
    "<div class=\"sect".toList ++ (toString h.level).toList ++ "\">\n<h".toList ++ (toString (h.level + 1)).toList ++ " id=\"".toList ++ lower id ++ "\">".toList ++ h.title.flatMap (Prose.char u) ++ r := by
  refine ⟨"</h".toList ++ (toString (h.level + 1)).toList ++ ">\n".toList ++
    (if h.level = 1 then "<div class=\"sectionbody\">\n".toList ++ t ++ "</div>\n".toList else t) ++ "</div>\n".toList, ?_⟩
  unfold sectionHtml
  simp only [List.append_assoc]

end
end C70
end Verif
