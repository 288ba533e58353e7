import Verif.Props.SectionIds

/-!
# C63, continued — Rendering of sections
-/
namespace Verif
namespace C63
open Sectioned
open Walk (Any)
open Composed (Block)
open Rend hiding Item bind_ok
open C62 (Fine bind_ok fine_counters)
open Prose (char)

/-! ### Titles -/

theorem char_first (p : Char → Bool) (hp : p '&' = false) (u : Bool) (c : Char) (h : p c = false) : ∃ d x, char u c = d :: x ∧ p d = false := by
  unfold char
  split
  · exact ⟨_, _, rfl, hp⟩
  · split
    · exact ⟨_, _, rfl, hp⟩
    · split
      · exact ⟨_, _, rfl, hp⟩
      · split
        · exact ⟨_, _, rfl, h⟩
        · exact ⟨_, _, rfl, hp⟩

theorem char_last (p : Char → Bool) (hp : p ';' = false) (u : Bool) (c : Char) (h : p c = false) : ∃ x d, char u c = x ++ [d] ∧ p d = false := by
  unfold char
  split
  · exact ⟨"&lt".toList, ';', rfl, hp⟩
  · split
    · exact ⟨"&gt".toList, ';', rfl, hp⟩
    · split
      · exact ⟨"&amp".toList, ';', rfl, hp⟩
      · split
        · exact ⟨[], c, rfl, h⟩
        · exact ⟨_, ';', rfl, hp⟩

theorem trimRight_flat (p : Char → Bool) (hp : p ';' = false) (u : Bool) {t : Text} (h : ∀ c ∈ t.getLast?, p c = false) :
    Rend.trimRight p (t.flatMap (char u)) = t.flatMap (char u) := by
  cases t with
  | nil => rfl
  | cons c t =>
    have hne : (c :: t) ≠ [] := fun h => nomatch h
    have hl := h _ (List.getLast?_eq_some_getLast hne)
    obtain ⟨y, d, e, hd⟩ := char_last p hp u _ hl
    conv => lhs; rw [← List.dropLast_concat_getLast hne]
    conv => rhs; rw [← List.dropLast_concat_getLast hne]
    rw [List.flatMap_append, List.flatMap_cons, List.flatMap_nil, List.append_nil, e]
    unfold Rend.trimRight
    rw [← List.append_assoc, List.reverse_append, List.reverse_cons, List.reverse_nil, List.nil_append, List.singleton_append,
      List.dropWhile_cons_of_neg (by simp [hd]), List.reverse_cons, List.reverse_reverse]

theorem trim_flat (p : Char → Bool) (hp : p ';' = false) (hp' : p '&' = false) (u : Bool) {t : Text} (h1 : ∀ c ∈ t.head?, p c = false)
    (h2 : ∀ c ∈ t.getLast?, p c = false) : Rend.trim p (t.flatMap (char u)) = t.flatMap (char u) := by
  cases t with
  | nil => rfl
  | cons c t =>
    obtain ⟨d, x, e, hd⟩ := char_first p hp' u c (h1 c rfl)
    have e1 : ((c :: t).flatMap (char u)).dropWhile p = (c :: t).flatMap (char u) := by
      rw [List.flatMap_cons, e, List.cons_append, List.dropWhile_cons_of_neg (by simp [hd])]
    unfold Rend.trim
    rw [e1, trimRight_flat p hp u h2]

/-- Special characters do not occur in titles. -/
theorem title_special {h : Heading} (hh : h.Ok) : ∀ c ∈ h.title, PlainText.isSpecial c = false := by
  intro c hc
  cases hs : PlainText.isSpecial c with
  | false => rfl
  | true =>
    exfalso
    have inf : [c] <:+: h.title ++ h.trail := by
      obtain ⟨a, b, e⟩ := List.append_of_mem hc
      exact ⟨a, b ++ h.trail, by rw [e]; simp⟩
    simp only [PlainText.isSpecial, Bool.or_eq_true, beq_iff_eq] at hs
    rcases hs with (rfl | rfl) | rfl
    · exact hh.plain "<" (by decide) inf
    · exact hh.plain ">" (by decide) inf
    · exact hh.plain "&" (by decide) inf

/-! ### Identifiers are not changed by the escaping -/

theorem escape_id {t : Text} (h : ∀ c ∈ t, c ∉ ['\x00', '"', '\'', '&', '<', '>']) : htmlEscape t = t := by
  induction t with
  | nil => rfl
  | cons c t ih =>
    have hc := h c List.mem_cons_self
    simp only [List.mem_cons, List.not_mem_nil, or_false, not_or] at hc
    unfold htmlEscape at ih ⊢
    rw [List.flatMap_cons, ih (fun d hd => h d (List.mem_cons_of_mem _ hd)), if_neg hc.1, if_neg hc.2.1, if_neg hc.2.2.1, if_neg hc.2.2.2.1, if_neg hc.2.2.2.2.1,
      if_neg hc.2.2.2.2.2]
    rfl

theorem mem_intercalate {sep : Text} {c : Char} : ∀ {ws : List Text}, c ∈ sep.intercalate ws → c ∈ sep ∨ ∃ w ∈ ws, c ∈ w
  | [], h => by simp [List.intercalate] at h
  | [w], h => by simp [List.intercalate] at h; exact .inr ⟨w, List.mem_cons_self, h⟩
  | w :: w' :: ws, h => by
    have e : sep.intercalate (w :: w' :: ws) = w ++ (sep ++ sep.intercalate (w' :: ws)) := by simp [List.intercalate]
    rw [e, List.mem_append, List.mem_append] at h
    rcases h with h | h | h
    · exact .inr ⟨w, List.mem_cons_self, h⟩
    · exact .inl h
    · rcases mem_intercalate h with h | ⟨v, hv, h⟩
      · exact .inl h
      · exact .inr ⟨v, List.mem_cons_of_mem _ hv, h⟩

theorem anchor_chars {alnum : Char → Bool} {t : Text} {c : Char} (h : c ∈ anchor alnum t) : c = '_' ∨ alnum c = true := by
  unfold anchor at h
  rcases List.mem_cons.mp h with rfl | h
  · exact .inl rfl
  · rcases mem_intercalate h with h | ⟨w, hw, h⟩
    · exact .inl (List.mem_singleton.mp h)
    · rw [← words_eq] at hw
      exact .inr ((C15.words_ok alnum t w hw).2 c h)

theorem digits_chars {n : Nat} {c : Char} (h : c ∈ (toString n).toList) : c.isDigit = true := by
  rw [show (toString n).toList = Nat.toDigits 10 n from Nat.toList_repr] at h
  exact Nat.isDigit_of_mem_toDigits (b := 10) (by decide) (by decide) h

theorem free_chars {alnum : Char → Bool} {used : List Text} {t : Text} {c : Char} (h : c ∈ free used (anchor alnum t)) : c = '_' ∨ alnum c = true ∨ c.isDigit = true := by
  obtain ⟨n, e⟩ := free_candidate used (anchor alnum t)
  rw [e] at h
  cases n with
  | zero => exact (anchor_chars h).imp id .inl
  | succ n =>
    unfold Sectioned.candidate at h
    rcases List.mem_append.mp h with h | h
    · exact (anchor_chars h).imp id .inl
    · rcases List.mem_cons.mp h with rfl | h
      · exact .inl rfl
      · exact .inr (.inr (digits_chars h))

/-- Nothing that would be escaped. -/
def Safe (id : Text) : Prop := ∀ c ∈ id, c ∉ ['\x00', '"', '\'', '&', '<', '>']

theorem free_safe {alnum : Char → Bool} (hA : ∀ c ∈ ['\x00', '"', '\'', '&', '<', '>'], alnum c = false) (used : List Text) (t : Text) : Safe (free used (anchor alnum t)) := by
  intro c hc hm
  rcases free_chars hc with rfl | h | h
  · revert hm; decide
  · rw [hA c hm] at h; cases h
  · simp only [List.mem_cons, List.not_mem_nil, or_false] at hm
    rcases hm with rfl | rfl | rfl | rfl | rfl | rfl <;> revert h <;> decide

theorem named_safe {alnum : Char → Bool} (hA : ∀ c ∈ ['\x00', '"', '\'', '&', '<', '>'], alnum c = false) : ∀ (xs : List Item) (used : List Text),
    ∀ y ∈ named alnum used xs, Safe y.2
  | [], _, _, h => nomatch h
  | .block b :: xs, used, y, h => by
    rcases List.mem_cons.mp h with rfl | h
    · intro c hc; cases hc
    · exact named_safe hA xs used y h
  | .list n ns :: xs, used, y, h => by
    rcases List.mem_cons.mp h with rfl | h
    · intro c hc; cases hc
    · exact named_safe hA xs used y h
  | .heading hd :: xs, used, y, h => by
    rcases List.mem_cons.mp h with rfl | h
    · exact free_safe hA used hd.title
    · exact named_safe hA xs _ y h

/-! ### Sections -/

/-- An element is rendered to a text, when sections are not numbered; nothing but the counters is changed. -/
def Writes (m : M Text) (u : Bool) (t : Text) : Prop := ∀ c, Fine u c → c.numbers = [] → ∃ k, m c = .ok (t, { c with counters := k })

section
variable {L : Lib} {u : Bool} {alnum : Char → Bool}

theorem writes_cons {n : Nat} {e : El} {es : List El} {t t' : Text} (h1 : Writes (renderElement L n e) u t) (h2 : Writes (renderAll (renderElement L n) es) u t') :
    Writes (renderAll (renderElement L n) (e :: es)) u (t ++ t') := by
  intro c hc hn
  obtain ⟨k1, h1⟩ := h1 c hc hn
  obtain ⟨k2, h2⟩ := h2 _ (fine_counters hc k1) hn
  exact ⟨k2, (bind_ok h1).trans ((bind_ok h2).trans rfl)⟩

theorem title_tmpl (lower : Text → Text) (l : Nat) (id t : Text) : Tmpl.Html5.sectionTitleTmpl.render lower
    [("Level", .num l), ("LevelPlusOne", .num ((l : Int) + 1)), ("ID", .str id), ("Number", .str []), ("Content", .str t)] =
    some ("<h".toList ++ (toString (l + 1)).toList ++ " id=\"".toList ++ lower id ++ "\">".toList ++ t ++ "</h".toList ++ (toString (l + 1)).toList ++ ">\n".toList) := by
  have e : ((l : Int) + 1).repr.toList = Nat.toDigits 10 (l + 1) := Nat.toList_repr (n := l + 1)
  simp [Tmpl.Html5.sectionTitleTmpl, Tmpl.Tm.render, Tmpl.Cond.eval, AMap.get, Tmpl.Val.truth, Tmpl.Val.shown, Tmpl.Fn.call, e]

theorem content_tmpl (lower : Text → Text) (l : Nat) (id hd t : Text) : Tmpl.Html5.sectionContentTmpl.render lower
    [("Header", .str hd), ("Level", .num l), ("ID", .str id), ("Roles", .str []), ("Content", .str t)] =
    some ("<div class=\"sect".toList ++ (toString l).toList ++ "\">\n".toList ++ hd ++
      (if l = 1 then "<div class=\"sectionbody\">\n".toList ++ t ++ "</div>\n".toList else t) ++ "</div>\n".toList) := by
  have e : (l : Int).repr.toList = Nat.toDigits 10 l := Nat.toList_repr (n := l)
  by_cases h : l = 1
  · subst h
    have e : (Int.repr 1).toList = Nat.toDigits 10 1 := rfl
    simp [e, Tmpl.Html5.sectionContentTmpl, Tmpl.Tm.render, Tmpl.Cond.eval, AMap.get, Tmpl.Val.truth, Tmpl.Val.shown, Tmpl.Fn.call]
  · have h' : ¬ (l : Int) = 1 := by omega
    simp [Tmpl.Html5.sectionContentTmpl, Tmpl.Tm.render, Tmpl.Cond.eval, AMap.get, Tmpl.Val.truth, Tmpl.Val.shown, Tmpl.Fn.call, e, h, h']

theorem inline_title {n : Nat} {h : Heading} (hh : h.Ok) {c : Rend.Ctx} (hc : Fine u c) :
    renderInline (renderElement L (n + 1)) [.str h.title] c = .ok (h.title.flatMap (char u), c) := by
  have h1 : renderElement L (n + 1) (.str h.title) c = .ok (h.title.flatMap (char u), c) := by
    show Except.ok (Escape.renderString (getBoolD c.attrs "unicode" true) h.title, c) = _
    rw [hc.unicode, C60.renderString_flat u _ (title_special hh)]
  unfold renderInline
  refine (bind_ok h1).trans ?_
  show Except.ok (Rend.trimRight (· == ' ') (h.title.flatMap (char u)) ++ [], c) = _
  rw [trimRight_flat (· == ' ') (by decide) u, List.append_nil]
  intro d hd
  have := hh.last d hd
  cases he : (d == ' ') with
  | false => rfl
  | true => rw [eq_of_beq he] at this; revert this; decide

/-- The title of a section in HTML. -/
def titleHtml (lower : Text → Text) (u : Bool) (h : Heading) (id : Text) : Text :=
  "<h".toList ++ (toString (h.level + 1)).toList ++ " id=\"".toList ++ lower id ++ "\">".toList ++ h.title.flatMap (char u) ++ "</h".toList ++ (toString (h.level + 1)).toList ++ ">\n".toList

theorem title_shows {R : Html.Rules} (hL : L.tmpl = Html.templatesOf R) {n : Nat} {h : Heading} (hh : h.Ok) {id : Text} (hid : Safe id) {c : Rend.Ctx} (hc : Fine u c) (hn : c.numbers = []) :
    sectionTitle L (renderElement L (n + 1)) h.level [("id", .str id)] [.str h.title] c = .ok (titleHtml L.lower u h id, c) := by
  have htr : Rend.trim goSpace (h.title.flatMap (char u)) = h.title.flatMap (char u) :=
    trim_flat goSpace (by decide) (by decide) u (fun d hd => hh.first d hd) (fun d hd => hh.last d hd)
  have hesc : elementID [("id", .str id)] = id := escape_id hid
  unfold sectionTitle
  refine (bind_ok (inline_title hh hc)).trans ?_
  show exec L (·.sectionTitle) [("Level", .num h.level), ("LevelPlusOne", .num ((h.level : Int) + 1)), ("ID", .str (elementID [("id", .str id)])),
    ("Number", .str ((c.numbers.lookup _).getD [])), ("Content", .str (Rend.trim goSpace (h.title.flatMap (char u))))] c = _
  rw [hn, htr, hesc]
  have ht : L.tmpl.sectionTitle = Tmpl.Html5.sectionTitleTmpl := by
    rw [hL]
    obtain ⟨x, o⟩ := R
    cases x <;> rfl
  refine C62.exec_block ?_
  rw [ht]
  exact title_tmpl _ _ _ _

theorem sectionHtml_eq (lower : Text → Text) (h : Heading) (id t : Text) : "<div class=\"sect".toList ++ (toString h.level).toList ++ "\">\n".toList ++ titleHtml lower u h id ++
      (if h.level = 1 then "<div class=\"sectionbody\">\n".toList ++ t ++ "</div>\n".toList else t) ++ "</div>\n".toList = sectionHtml lower u h id t := by
  unfold sectionHtml titleHtml
  have e : "\">\n<h".toList = "\">\n".toList ++ "<h".toList := by decide
  rw [e]
  simp only [List.append_assoc]

/-- A section, given its content. -/
theorem section_at {R : Html.Rules} (hL : L.tmpl = Html.templatesOf R) (n : Nat) {h : Heading} (hh : h.Ok) {id : Text} (hid : Safe id) {es : List El} {t : Text} {c : Rend.Ctx}
    (hc : Fine u c) (hn : c.numbers = []) {k : AMap Nat} (hk : renderAll (renderElement L (n + 1)) es c = .ok (t, { c with counters := k })) :
    renderElement L (n + 2) (.sect h.level [("id", .str id)] [.str h.title] es) c = .ok (sectionHtml L.lower u h id t, { c with counters := k }) := by
  show renderSection L (renderElement L (n + 1)) h.level [("id", .str id)] [.str h.title] es c = _
  unfold renderSection
  refine (bind_ok (title_shows hL hh hid hc hn)).trans ((bind_ok hk).trans ?_)
  refine (bind_ok (a := []) (c' := { c with counters := k }) rfl).trans ?_
  have ht : L.tmpl.sectionContent = Tmpl.Html5.sectionContentTmpl := by
    rw [hL]
    obtain ⟨x, o⟩ := R
    cases x <;> rfl
  refine C62.exec_block ?_
  rw [ht, ← sectionHtml_eq]
  exact content_tmpl _ _ _ _ _

theorem section_shows {R : Html.Rules} (hL : L.tmpl = Html.templatesOf R) (n : Nat) {h : Heading} (hh : h.Ok) {id : Text} (hid : Safe id) {es : List El} {t : Text}
    (hes : Writes (renderAll (renderElement L (n + 1)) es) u t) :
    Writes (renderElement L (n + 2) (.sect h.level [("id", .str id)] [.str h.title] es)) u (sectionHtml L.lower u h id t) := by
  intro c hc hn
  obtain ⟨k, hk⟩ := hes c hc hn
  exact ⟨k, section_at hL n hh hid hc hn hk⟩

end

end C63
end Verif
