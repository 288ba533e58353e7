import Verif.Model.Escape
/-!
C27 — escaped text contains no markup-significant character.
C28 — ASCII entity conversion yields ASCII and is reversible.
-/
namespace Verif.Entities
open Verif.Escape

/-! ### Specification: reading character references, as a browser does -/

/-- Letters and digits of ASCII. -/
def alnum (c : Char) : Bool := (decide ('0' ≤ c) && decide (c ≤ '9')) || (decide ('a' ≤ c) && decide (c ≤ 'z')) || (decide ('A' ≤ c) && decide (c ≤ 'Z'))

/-- A character reference, after its `&`: the character and the number of characters read. Numeric ones are `#...;`, where `num` gives
the meaning of the number, if it has one. -/
def entity (num : Text → Option Char) (t : Text) : Option (Char × Nat) :=
  if "lt;".toList.isPrefixOf t then some ('<', 3)
  else if "gt;".toList.isPrefixOf t then some ('>', 3)
  else if "amp;".toList.isPrefixOf t then some ('&', 4)
  else match t with
    | '#' :: r =>
      if (r.dropWhile alnum).head? = some ';' then (num (r.takeWhile alnum)).map (fun c => (c, (r.takeWhile alnum).length + 2)) else none
    | _ => none

/-- Text with the character references replaced by the characters; `skip` characters of a reference remain to be skipped. -/
def decodeFrom (num : Text → Option Char) : Nat → Text → Text
  | _, [] => []
  | k + 1, _ :: t => decodeFrom num k t
  | 0, c :: t =>
    if c = '&' then
      match entity num t with
      | some (ch, n) => ch :: decodeFrom num n t
      | none => c :: decodeFrom num 0 t
    else c :: decodeFrom num 0 t

/-- Text with the character references replaced by the characters. -/
def decode (num : Text → Option Char) (s : Text) : Text := decodeFrom num 0 s

/-- A character reference is read here, given the text after `&`: one of the three above, or any numeric one. -/
def refAhead (t : Text) : Bool := "lt;".toList.isPrefixOf t || "gt;".toList.isPrefixOf t || "amp;".toList.isPrefixOf t || "#".toList.isPrefixOf t

/-! ### Decoding -/

theorem decodeFrom_drop (num : Text → Option Char) : ∀ (n : Nat) (t : Text), decodeFrom num n t = decode num (t.drop n)
  | 0, t => rfl
  | n + 1, [] => rfl
  | n + 1, c :: t => by show decodeFrom num n t = _; rw [decodeFrom_drop num n t]; rfl

theorem decode_cons (num : Text → Option Char) (c : Char) (t : Text) (h : c ≠ '&') : decode num (c :: t) = c :: decode num t := by
  show (if c = '&' then _ else c :: decodeFrom num 0 t) = _
  rw [if_neg h]; rfl

theorem decode_amp (num : Text → Option Char) (t : Text) : decode num ('&' :: t) = match entity num t with
    | some (ch, n) => ch :: decode num (t.drop n)
    | none => '&' :: decode num t := by
  show (if '&' = '&' then (match entity num t with
      | some (ch, n) => ch :: decodeFrom num n t
      | none => '&' :: decodeFrom num 0 t) else '&' :: decodeFrom num 0 t) = _
  rw [if_pos rfl]
  cases entity num t with
  | none => rfl
  | some p => dsimp only; rw [decodeFrom_drop]

theorem entity_lt (num : Text → Option Char) (r : Text) : entity num ('l' :: 't' :: ';' :: r) = some ('<', 3) := rfl
theorem entity_gt (num : Text → Option Char) (r : Text) : entity num ('g' :: 't' :: ';' :: r) = some ('>', 3) := rfl
theorem entity_amp (num : Text → Option Char) (r : Text) : entity num ('a' :: 'm' :: 'p' :: ';' :: r) = some ('&', 4) := rfl

theorem entity_hash (num : Text → Option Char) (r : Text) : entity num ('#' :: r) =
    if (r.dropWhile alnum).head? = some ';' then (num (r.takeWhile alnum)).map (fun c => (c, (r.takeWhile alnum).length + 2)) else none := rfl

theorem entity_none (num : Text → Option Char) (t : Text) (h : refAhead t = false) : entity num t = none := by
  unfold refAhead at h
  simp only [Bool.or_eq_false_iff] at h
  obtain ⟨⟨⟨h1, h2⟩, h3⟩, h4⟩ := h
  unfold entity
  rw [if_neg (by rw [h1]; simp), if_neg (by rw [h2]; simp), if_neg (by rw [h3]; simp)]
  split
  · simp at h4
  · rfl

/-- Text without character references means itself. -/
theorem decode_plain (num : Text → Option Char) : ∀ s : Text, (∀ a b, s = a ++ '&' :: b → refAhead b = false) → decode num s = s
  | [], _ => rfl
  | c :: t, h => by
    have ih := decode_plain num t (fun a b e => h (c :: a) b (by rw [e]; rfl))
    by_cases hc : c = '&'
    · subst hc
      rw [decode_amp, entity_none num t (h [] t rfl), ih]
    · rw [decode_cons num c t hc, ih]

end Verif.Entities

namespace Verif.C27
open Verif.Escape Verif.Entities

/-! ### Escaping, character by character -/

/-- What a character is replaced with, given the text after it. -/
def esc1 (c : Char) (t : Text) : Text :=
  if c = '&' then (if refAhead t then ['&'] else "&amp;".toList)
  else if c = '<' then "&lt;".toList
  else if c = '>' then "&gt;".toList
  else if c = '\'' then "&#39;".toList
  else if c = '"' then "&#34;".toList
  else [c]

/-- Escaping, character by character. -/
def esc : Text → Text
  | [] => []
  | c :: t => esc1 c t ++ esc t

theorem prefix_one (c d : Char) (t : Text) : List.isPrefixOf [c] (d :: t) = (c == d) := by
  simp [List.isPrefixOf]

theorem replaceGo_drop (pairs : List (Text × Text)) : ∀ (n : Nat) (t : Text), replaceGo pairs n t = replaceGo pairs 0 (t.drop n)
  | 0, t => rfl
  | n + 1, [] => rfl
  | n + 1, c :: t => by show replaceGo pairs n t = _; rw [replaceGo_drop pairs n t]; rfl

theorem htmlPairs_chars : htmlPairs =
    [(['&', 'l', 't', ';'], ['&', 'l', 't', ';']), (['&', 'g', 't', ';'], ['&', 'g', 't', ';']), (['&', 'a', 'm', 'p', ';'], ['&', 'a', 'm', 'p', ';']),
     (['&', '#'], ['&', '#']), (['&'], ['&', 'a', 'm', 'p', ';']), (['<'], ['&', 'l', 't', ';']), (['>'], ['&', 'g', 't', ';']),
     (['\''], ['&', '#', '3', '9', ';']), (['"'], ['&', '#', '3', '4', ';'])] := rfl

theorem prefix_same (c : Char) (x t : Text) : List.isPrefixOf (c :: x) (c :: t) = x.isPrefixOf t := by simp [List.isPrefixOf]
theorem prefix_other (c d : Char) (x t : Text) (h : c ≠ d) : List.isPrefixOf (c :: x) (d :: t) = false := by simp [List.isPrefixOf, h]

theorem find_amp (t : Text) : htmlPairs.find? (fun p => p.1.isPrefixOf ('&' :: t)) =
    if ['l', 't', ';'].isPrefixOf t then some (['&', 'l', 't', ';'], ['&', 'l', 't', ';'])
    else if ['g', 't', ';'].isPrefixOf t then some (['&', 'g', 't', ';'], ['&', 'g', 't', ';'])
    else if ['a', 'm', 'p', ';'].isPrefixOf t then some (['&', 'a', 'm', 'p', ';'], ['&', 'a', 'm', 'p', ';'])
    else if ['#'].isPrefixOf t then some (['&', '#'], ['&', '#'])
    else some (['&'], ['&', 'a', 'm', 'p', ';']) := by
  rw [htmlPairs_chars]
  simp only [List.find?_cons, prefix_same]
  cases ['l', 't', ';'].isPrefixOf t with
  | true => rfl
  | false =>
    cases ['g', 't', ';'].isPrefixOf t with
    | true => rfl
    | false =>
      cases ['a', 'm', 'p', ';'].isPrefixOf t with
      | true => rfl
      | false =>
        cases ['#'].isPrefixOf t with
        | true => rfl
        | false => simp [List.isPrefixOf]

theorem find_other (c : Char) (t : Text) (h : c ≠ '&') : htmlPairs.find? (fun p => p.1.isPrefixOf (c :: t)) =
    if c = '<' then some (['<'], ['&', 'l', 't', ';'])
    else if c = '>' then some (['>'], ['&', 'g', 't', ';'])
    else if c = '\'' then some (['\''], ['&', '#', '3', '9', ';'])
    else if c = '"' then some (['"'], ['&', '#', '3', '4', ';'])
    else none := by
  rw [htmlPairs_chars]
  simp only [List.find?_cons, prefix_other _ _ _ _ (Ne.symm h), prefix_one, List.find?_nil]
  by_cases h1 : c = '<'
  · subst h1; rfl
  · by_cases h2 : c = '>'
    · subst h2; rfl
    · by_cases h3 : c = '\''
      · subst h3; rfl
      · by_cases h4 : c = '"'
        · subst h4; rfl
        · rw [if_neg h1, if_neg h2, if_neg h3, if_neg h4]
          have e1 : ('<' == c) = false := by simpa using Ne.symm h1
          have e2 : ('>' == c) = false := by simpa using Ne.symm h2
          have e3 : ('\'' == c) = false := by simpa using Ne.symm h3
          have e4 : ('"' == c) = false := by simpa using Ne.symm h4
          rw [e1, e2, e3, e4]

theorem prefix_drop : ∀ (x t : Text), x.isPrefixOf t = true → t = x ++ t.drop x.length
  | [], t, _ => rfl
  | c :: x, [], h => by simp at h
  | c :: x, d :: t, h => by
    simp only [List.isPrefixOf, Bool.and_eq_true, beq_iff_eq] at h
    obtain ⟨rfl, h⟩ := h
    have := prefix_drop x t h
    rw [List.cons_append, List.length_cons, List.drop_succ_cons]
    exact congrArg (c :: ·) this

/-- Characters that are not replaced. -/
def kept (c : Char) : Bool := c != '&' && c != '<' && c != '>' && c != '\'' && c != '"'

theorem esc1_kept (c : Char) (t : Text) (h : kept c = true) : esc1 c t = [c] := by
  simp only [kept, Bool.and_eq_true, bne_iff_ne, ne_eq] at h
  obtain ⟨⟨⟨⟨h1, h2⟩, h3⟩, h4⟩, h5⟩ := h
  unfold esc1
  rw [if_neg h1, if_neg h2, if_neg h3, if_neg h4, if_neg h5]

theorem esc_kept : ∀ (x t : Text), (∀ c ∈ x, kept c = true) → esc (x ++ t) = x ++ esc t
  | [], t, _ => rfl
  | c :: x, t, h => by
    show esc1 c (x ++ t) ++ esc (x ++ t) = _
    rw [esc1_kept c _ (h c (by simp)), esc_kept x t (fun d hd => h d (by simp [hd]))]; rfl

theorem escape_esc (s : Text) : escapeString s = esc s := by
  unfold escapeString
  induction hn : s.length using Nat.strongRecOn generalizing s with
  | _ n ih =>
    cases s with
    | nil => rfl
    | cons c t =>
      have hl : t.length < n := by rw [← hn]; simp
      have step : replaceGo htmlPairs 0 (c :: t) = match htmlPairs.find? (fun p => p.1.isPrefixOf (c :: t)) with
        | some p => p.2 ++ replaceGo htmlPairs (p.1.length - 1) t
        | none => c :: replaceGo htmlPairs 0 t := rfl
      rw [step]
      by_cases hc : c = '&'
      · subst hc
        rw [find_amp]
        have keep : ∀ x : Text, x.isPrefixOf t = true → (∀ d ∈ x, kept d = true) → refAhead t = true →
            ('&' :: x) ++ replaceGo htmlPairs (('&' :: x).length - 1) t = esc ('&' :: t) := by
          intro x hx hk hr
          rw [replaceGo_drop]
          have e : ('&' :: x).length - 1 = x.length := by simp
          rw [e, ih (t.drop x.length).length (by rw [List.length_drop]; omega) _ rfl]
          show _ = esc1 '&' t ++ esc t
          have e1 : esc1 '&' t = ['&'] := by unfold esc1; rw [if_pos rfl, if_pos hr]
          have e2 := prefix_drop x t hx
          rw [e1]
          conv => rhs; rw [e2, esc_kept x _ hk]
          rfl
        cases h1 : ['l', 't', ';'].isPrefixOf t with
        | true => exact keep ['l', 't', ';'] h1 (by decide) (by unfold refAhead; show (['l', 't', ';'].isPrefixOf t || _ || _ || _) = true; rw [h1]; rfl)
        | false =>
        cases h2 : ['g', 't', ';'].isPrefixOf t with
        | true => exact keep ['g', 't', ';'] h2 (by decide) (by unfold refAhead; show (_ || ['g', 't', ';'].isPrefixOf t || _ || _) = true; rw [h2]; simp)
        | false =>
        cases h3 : ['a', 'm', 'p', ';'].isPrefixOf t with
        | true => exact keep ['a', 'm', 'p', ';'] h3 (by decide) (by unfold refAhead; show (_ || _ || ['a', 'm', 'p', ';'].isPrefixOf t || _) = true; rw [h3]; simp)
        | false =>
        cases h4 : ['#'].isPrefixOf t with
        | true => exact keep ['#'] h4 (by decide) (by unfold refAhead; show (_ || _ || _ || ['#'].isPrefixOf t) = true; rw [h4]; simp)
        | false =>
          show ['&', 'a', 'm', 'p', ';'] ++ replaceGo htmlPairs 0 t = esc1 '&' t ++ esc t
          have hr : refAhead t = false := by
            unfold refAhead
            show (['l', 't', ';'].isPrefixOf t || ['g', 't', ';'].isPrefixOf t || ['a', 'm', 'p', ';'].isPrefixOf t || ['#'].isPrefixOf t) = false
            rw [h1, h2, h3, h4]; rfl
          rw [ih t.length hl t rfl]
          unfold esc1
          rw [if_pos rfl, hr]; rfl
      · rw [find_other c t hc]
        show _ = esc1 c t ++ esc t
        rw [← ih t.length hl t rfl]
        unfold esc1
        rw [if_neg hc]
        by_cases h1 : c = '<'
        · rw [if_pos h1, if_pos h1]; rfl
        rw [if_neg h1, if_neg h1]
        by_cases h2 : c = '>'
        · rw [if_pos h2, if_pos h2]; rfl
        rw [if_neg h2, if_neg h2]
        by_cases h3 : c = '\''
        · rw [if_pos h3, if_pos h3]; rfl
        rw [if_neg h3, if_neg h3]
        by_cases h4 : c = '"'
        · rw [if_pos h4, if_pos h4]; rfl
        rw [if_neg h4, if_neg h4]; rfl

/-! ### Theorems -/

theorem esc1_no_markup (c : Char) (t : Text) : ∀ d ∈ esc1 c t, d ≠ '<' ∧ d ≠ '>' ∧ d ≠ '\'' ∧ d ≠ '"' := by
  by_cases h : kept c = true
  · rw [esc1_kept c t h]
    intro d hd
    rw [List.mem_singleton.1 hd]
    simp only [kept, Bool.and_eq_true, bne_iff_ne, ne_eq] at h
    exact ⟨h.1.1.1.2, h.1.1.2, h.1.2, h.2⟩
  · unfold esc1
    split
    · split
      · decide
      · decide
    · split
      · decide
      · split
        · decide
        · split
          · decide
          · split
            · decide
            · rename_i h1 h2 h3 h4 h5
              exact absurd (by simp [kept, h1, h2, h3, h4, h5]) h

/-- C27: escaped text contains none of the characters `<`, `>`, `'` and `"`. -/
theorem no_markup (s : Text) : ∀ d ∈ escapeString s, d ≠ '<' ∧ d ≠ '>' ∧ d ≠ '\'' ∧ d ≠ '"' := by
  rw [escape_esc]
  induction s with
  | nil => intro d hd; cases hd
  | cons c t ih =>
    intro d hd
    rcases List.mem_append.1 (show d ∈ esc1 c t ++ esc t from hd) with hd | hd
    · exact esc1_no_markup c t d hd
    · exact ih d hd

/-- Every `&` begins a character reference. -/
def ok : Text → Bool
  | [] => true
  | c :: t => (c != '&' || refAhead t) && ok t

theorem ok_iff : ∀ s : Text, ok s = true → ∀ a b, s = a ++ '&' :: b → refAhead b = true
  | [], _, a, b, e => by cases a <;> cases e
  | c :: t, h, a, b, e => by
    simp only [ok, Bool.and_eq_true] at h
    cases a with
    | nil =>
      cases e
      simpa using h.1
    | cons d a =>
      cases e
      exact ok_iff _ h.2 a b rfl

theorem refAhead_cases (t : Text) (h : refAhead t = true) : (∃ r, t = 'l' :: 't' :: ';' :: r) ∨ (∃ r, t = 'g' :: 't' :: ';' :: r) ∨
    (∃ r, t = 'a' :: 'm' :: 'p' :: ';' :: r) ∨ (∃ r, t = '#' :: r) := by
  unfold refAhead at h
  simp only [Bool.or_eq_true] at h
  rcases h with ((h | h) | h) | h
  · exact Or.inl ⟨_, prefix_drop ['l', 't', ';'] t h⟩
  · exact Or.inr (Or.inl ⟨_, prefix_drop ['g', 't', ';'] t h⟩)
  · exact Or.inr (Or.inr (Or.inl ⟨_, prefix_drop ['a', 'm', 'p', ';'] t h⟩))
  · exact Or.inr (Or.inr (Or.inr ⟨_, prefix_drop ['#'] t h⟩))

theorem refAhead_lt (r : Text) : refAhead ('l' :: 't' :: ';' :: r) = true := rfl
theorem refAhead_gt (r : Text) : refAhead ('g' :: 't' :: ';' :: r) = true := rfl
theorem refAhead_amp (r : Text) : refAhead ('a' :: 'm' :: 'p' :: ';' :: r) = true := rfl
theorem refAhead_hash (r : Text) : refAhead ('#' :: r) = true := rfl

theorem refAhead_esc (t : Text) (h : refAhead t = true) : refAhead (esc t) = true := by
  rcases refAhead_cases t h with ⟨r, rfl⟩ | ⟨r, rfl⟩ | ⟨r, rfl⟩ | ⟨r, rfl⟩
  · rw [show 'l' :: 't' :: ';' :: r = ['l', 't', ';'] ++ r from rfl, esc_kept _ _ (by decide)]; rfl
  · rw [show 'g' :: 't' :: ';' :: r = ['g', 't', ';'] ++ r from rfl, esc_kept _ _ (by decide)]; rfl
  · rw [show 'a' :: 'm' :: 'p' :: ';' :: r = ['a', 'm', 'p', ';'] ++ r from rfl, esc_kept _ _ (by decide)]; rfl
  · rw [show '#' :: r = ['#'] ++ r from rfl, esc_kept _ _ (by decide)]; rfl

/-- The five ways to escape a character. -/
theorem esc1_cases (c : Char) (t : Text) : (esc1 c t = [c] ∧ kept c = true) ∨ (c = '&' ∧ refAhead t = true ∧ esc1 c t = ['&']) ∨
    (c = '&' ∧ refAhead t = false ∧ esc1 c t = ['&', 'a', 'm', 'p', ';']) ∨ (c = '<' ∧ esc1 c t = ['&', 'l', 't', ';']) ∨
    (c = '>' ∧ esc1 c t = ['&', 'g', 't', ';']) ∨ (c = '\'' ∧ esc1 c t = ['&', '#', '3', '9', ';']) ∨
    (c = '"' ∧ esc1 c t = ['&', '#', '3', '4', ';']) := by
  by_cases h0 : c = '&'
  · subst h0
    cases hr : refAhead t with
    | true => exact Or.inr (Or.inl ⟨rfl, rfl, by unfold esc1; rw [if_pos rfl, if_pos hr]⟩)
    | false => exact Or.inr (Or.inr (Or.inl ⟨rfl, rfl, by unfold esc1; rw [if_pos rfl, hr]; rfl⟩))
  by_cases h1 : c = '<'
  · subst h1; exact Or.inr (Or.inr (Or.inr (Or.inl ⟨rfl, rfl⟩)))
  by_cases h2 : c = '>'
  · subst h2; exact Or.inr (Or.inr (Or.inr (Or.inr (Or.inl ⟨rfl, rfl⟩))))
  by_cases h3 : c = '\''
  · subst h3; exact Or.inr (Or.inr (Or.inr (Or.inr (Or.inr (Or.inl ⟨rfl, rfl⟩)))))
  by_cases h4 : c = '"'
  · subst h4; exact Or.inr (Or.inr (Or.inr (Or.inr (Or.inr (Or.inr ⟨rfl, rfl⟩)))))
  have hk : kept c = true := by simp [kept, h0, h1, h2, h3, h4]
  exact Or.inl ⟨esc1_kept c t hk, hk⟩

theorem kept_amp {c : Char} (h : kept c = true) : c ≠ '&' := by
  simp only [kept, Bool.and_eq_true, bne_iff_ne, ne_eq] at h
  exact h.1.1.1.1

theorem ok_esc : ∀ s : Text, ok (esc s) = true
  | [] => rfl
  | c :: t => by
    have ih := ok_esc t
    show ok (esc1 c t ++ esc t) = true
    rcases esc1_cases c t with ⟨e, hk⟩ | ⟨_, hr, e⟩ | ⟨_, _, e⟩ | ⟨_, e⟩ | ⟨_, e⟩ | ⟨_, e⟩ | ⟨_, e⟩ <;> rw [e]
    · show ((c != '&' || _) && ok (esc t)) = true
      rw [ih]
      simp [kept_amp hk]
    · show (('&' != '&' || refAhead (esc t)) && ok (esc t)) = true
      rw [ih, refAhead_esc t hr]; rfl
    · exact ih
    · exact ih
    · exact ih
    · exact ih
    · exact ih

/-- C27: every `&` of escaped text begins one of the references `&lt;`, `&gt;`, `&amp;`, or `&#`. -/
theorem ampersands (s a b : Text) (h : escapeString s = a ++ '&' :: b) : refAhead b = true := by
  rw [escape_esc] at h
  exact ok_iff _ (ok_esc s) a b h

/-- C27: text without special characters is unchanged. -/
theorem plain_unchanged (s : Text) (h : ∀ c ∈ s, c ≠ '&' ∧ c ≠ '<' ∧ c ≠ '>' ∧ c ≠ '\'' ∧ c ≠ '"') : escapeString s = s := by
  rw [escape_esc]
  have := esc_kept s [] (fun c hc => by
    obtain ⟨h0, h1, h2, h3, h4⟩ := h c hc
    simp [kept, h0, h1, h2, h3, h4])
  rw [List.append_nil] at this
  rw [this]; simp [esc]

theorem esc_ok : ∀ s : Text, ok s = true → (∀ d ∈ s, d ≠ '<' ∧ d ≠ '>' ∧ d ≠ '\'' ∧ d ≠ '"') → esc s = s
  | [], _, _ => rfl
  | c :: t, h, hm => by
    simp only [ok, Bool.and_eq_true] at h
    have ih := esc_ok t h.2 (fun d hd => hm d (by simp [hd]))
    show esc1 c t ++ esc t = c :: t
    rw [ih]
    obtain ⟨m1, m2, m3, m4⟩ := hm c (by simp)
    rcases esc1_cases c t with ⟨e, hk⟩ | ⟨hc, hr, e⟩ | ⟨hc, hr, e⟩ | ⟨hc, e⟩ | ⟨hc, e⟩ | ⟨hc, e⟩ | ⟨hc, e⟩
    · rw [e]; rfl
    · rw [e, hc]; rfl
    · subst hc
      rw [hr] at h
      simp at h
    · exact absurd hc m1
    · exact absurd hc m2
    · exact absurd hc m3
    · exact absurd hc m4

/-- C27: escaping twice is the same as escaping once. -/
theorem idempotent (s : Text) : escapeString (escapeString s) = escapeString s := by
  have hm := no_markup s
  rw [escape_esc s] at hm
  rw [escape_esc, escape_esc]
  exact esc_ok _ (ok_esc s) hm

theorem alnum_kept (c : Char) (h : alnum c = true) : kept c = true := by
  have h0 : c ≠ '&' := by rintro rfl; revert h; decide
  have h1 : c ≠ '<' := by rintro rfl; revert h; decide
  have h2 : c ≠ '>' := by rintro rfl; revert h; decide
  have h3 : c ≠ '\'' := by rintro rfl; revert h; decide
  have h4 : c ≠ '"' := by rintro rfl; revert h; decide
  simp [kept, h0, h1, h2, h3, h4]

theorem mem_takeWhile {α} (p : α → Bool) : ∀ (l : List α), ∀ x ∈ l.takeWhile p, p x = true
  | [], x, h => by cases h
  | y :: l, x, h => by
    rw [List.takeWhile_cons] at h
    split at h
    · rcases List.mem_cons.1 h with rfl | h
      · assumption
      · exact mem_takeWhile p l x h
    · cases h

theorem head_dropWhile {α} (p : α → Bool) : ∀ (l : List α), ∀ x ∈ (l.dropWhile p).head?, p x = false
  | [], x, h => by cases h
  | y :: l, x, h => by
    rw [List.dropWhile_cons] at h
    split at h
    · exact head_dropWhile p l x h
    · simp at h
      subst h
      rename_i hp
      simpa using hp

theorem span_unique {α} (p : α → Bool) : ∀ (x y : List α), (∀ c ∈ x, p c = true) → (∀ c ∈ y.head?, p c = false) →
    (x ++ y).takeWhile p = x ∧ (x ++ y).dropWhile p = y
  | [], y, _, hy => by
    cases y with
    | nil => exact ⟨rfl, rfl⟩
    | cons c y =>
      have := hy c (by simp)
      rw [List.nil_append, List.takeWhile_cons, List.dropWhile_cons, this]
      exact ⟨rfl, rfl⟩
  | c :: x, y, hx, hy => by
    have ih := span_unique p x y (fun d hd => hx d (by simp [hd])) hy
    rw [List.cons_append, List.takeWhile_cons, List.dropWhile_cons, hx c (by simp), if_pos rfl, if_pos rfl, ih.1, ih.2]
    exact ⟨rfl, rfl⟩

/-- The first character of escaped text. -/
theorem head_esc (t : Text) : (esc t).head? = t.head? ∨ (esc t).head? = some '&' ∧ ∃ c, t.head? = some c ∧ kept c = false := by
  cases t with
  | nil => exact Or.inl rfl
  | cons c t =>
    show (esc1 c t ++ esc t).head? = _ ∨ _
    rcases esc1_cases c t with ⟨e, hk⟩ | ⟨hc, hr, e⟩ | ⟨hc, hr, e⟩ | ⟨hc, e⟩ | ⟨hc, e⟩ | ⟨hc, e⟩ | ⟨hc, e⟩
    · left; rw [e]; rfl
    · left; rw [e, hc]; rfl
    all_goals
      right
      subst hc
      refine ⟨?_, _, rfl, rfl⟩
      show (esc1 _ t ++ esc t).head? = _
      rw [e]; rfl

/-- C27: escaping keeps the meaning: a browser reads the same characters from the escaped text as from the text itself, as far as
it contains `&lt;`, `&gt;`, `&amp;` and numeric references, which are left alone. -/
theorem meaning_kept (num : Text → Option Char) (h39 : num "39".toList = some '\'') (h34 : num "34".toList = some '"') (s : Text) :
    decode num (escapeString s) = decode num s := by
  rw [escape_esc]
  induction hn : s.length using Nat.strongRecOn generalizing s with
  | _ n ih =>
    cases s with
    | nil => rfl
    | cons c t =>
      have hl : t.length < n := by rw [← hn]; simp
      have iht := ih t.length hl t rfl
      show decode num (esc1 c t ++ esc t) = _
      rcases esc1_cases c t with ⟨e, hk⟩ | ⟨rfl, hr, e⟩ | ⟨rfl, hr, e⟩ | ⟨rfl, e⟩ | ⟨rfl, e⟩ | ⟨rfl, e⟩ | ⟨rfl, e⟩ <;> rw [e]
      · rw [List.singleton_append, decode_cons num c _ (kept_amp hk), decode_cons num c _ (kept_amp hk), iht]
      · rw [List.singleton_append, decode_amp, decode_amp]
        rcases refAhead_cases t hr with ⟨r, rfl⟩ | ⟨r, rfl⟩ | ⟨r, rfl⟩ | ⟨r, rfl⟩
        · have e' : esc ('l' :: 't' :: ';' :: r) = 'l' :: 't' :: ';' :: esc r := esc_kept ['l', 't', ';'] r (by decide)
          rw [e', entity_lt, entity_lt]
          dsimp only
          congr 1
          exact ih r.length (by simp at hl; omega) r rfl
        · have e' : esc ('g' :: 't' :: ';' :: r) = 'g' :: 't' :: ';' :: esc r := esc_kept ['g', 't', ';'] r (by decide)
          rw [e', entity_gt, entity_gt]
          dsimp only
          congr 1
          exact ih r.length (by simp at hl; omega) r rfl
        · have e' : esc ('a' :: 'm' :: 'p' :: ';' :: r) = 'a' :: 'm' :: 'p' :: ';' :: esc r := esc_kept ['a', 'm', 'p', ';'] r (by decide)
          rw [e', entity_amp, entity_amp]
          dsimp only
          congr 1
          exact ih r.length (by simp at hl; omega) r rfl
        · have e' : esc ('#' :: r) = '#' :: esc r := esc_kept ['#'] r (by decide)
          rw [e', entity_hash, entity_hash]
          -- the digits
          have hsplit : r.takeWhile alnum ++ r.dropWhile alnum = r := List.takeWhile_append_dropWhile
          have er : esc r = r.takeWhile alnum ++ esc (r.dropWhile alnum) := by
            conv => lhs; rw [← hsplit]
            exact esc_kept _ _ (fun d hd => alnum_kept d (mem_takeWhile alnum r d hd))
          have hhead : ∀ d ∈ (esc (r.dropWhile alnum)).head?, alnum d = false := by
            intro d hd
            rcases head_esc (r.dropWhile alnum) with h | ⟨h, _⟩
            · rw [h] at hd; exact head_dropWhile alnum r d hd
            · rw [h] at hd; cases hd; rfl
          obtain ⟨s1, s2⟩ := span_unique alnum _ _ (fun d hd => mem_takeWhile alnum r d hd) hhead
          rw [← er] at s1 s2
          rw [s1, s2]
          have hsemi : (esc (r.dropWhile alnum)).head? = some ';' ↔ (r.dropWhile alnum).head? = some ';' := by
            rcases head_esc (r.dropWhile alnum) with h | ⟨h, d, hd, hk⟩
            · rw [h]
            · rw [h, hd]
              constructor
              · intro x; cases x
              · intro x; cases x; cases hk
          have hrec : '#' :: esc r = esc ('#' :: r) := e'.symm
          by_cases hs : (r.dropWhile alnum).head? = some ';'
          · rw [if_pos hs, if_pos (hsemi.2 hs)]
            cases hnum : num (r.takeWhile alnum) with
            | none =>
              show '&' :: decode num ('#' :: esc r) = '&' :: decode num ('#' :: r)
              rw [hrec, iht]
            | some ch =>
              show ch :: decode num (('#' :: esc r).drop ((r.takeWhile alnum).length + 2)) = ch :: decode num (('#' :: r).drop ((r.takeWhile alnum).length + 2))
              congr 1
              cases hd : r.dropWhile alnum with
              | nil => rw [hd] at hs; cases hs
              | cons x r' =>
                rw [hd] at hs
                cases hs
                have d1 : ('#' :: r).drop ((r.takeWhile alnum).length + 2) = r' := by
                  conv => lhs; arg 2; rw [← hsplit, hd]
                  show (r.takeWhile alnum ++ ';' :: r').drop ((r.takeWhile alnum).length + 1) = r'
                  rw [List.drop_append]; simp
                have ex : esc (';' :: r') = ';' :: esc r' := esc_kept [';'] r' (by decide)
                have d2 : ('#' :: esc r).drop ((r.takeWhile alnum).length + 2) = esc r' := by
                  conv => lhs; arg 2; rw [er, hd, ex]
                  show (r.takeWhile alnum ++ ';' :: esc r').drop ((r.takeWhile alnum).length + 1) = esc r'
                  rw [List.drop_append]; simp
                rw [d1, d2]
                have hlr : r'.length < n := by
                  have : r'.length < r.length := by
                    conv => rhs; rw [← hsplit, hd]
                    simp
                    omega
                  simp at hl
                  omega
                exact ih r'.length hlr r' rfl
          · rw [if_neg hs, if_neg (fun x => hs (hsemi.1 x))]
            show '&' :: decode num ('#' :: esc r) = '&' :: decode num ('#' :: r)
            rw [hrec, iht]
      · show decode num ('&' :: 'a' :: 'm' :: 'p' :: ';' :: esc t) = _
        rw [decode_amp, decode_amp, entity_amp, entity_none num t hr]
        show '&' :: decode num (esc t) = '&' :: decode num t
        rw [iht]
      · show decode num ('&' :: 'l' :: 't' :: ';' :: esc t) = _
        rw [decode_amp, entity_lt]
        show '<' :: decode num (esc t) = _
        rw [iht]
        exact (decode_cons num _ _ (by decide)).symm
      · show decode num ('&' :: 'g' :: 't' :: ';' :: esc t) = _
        rw [decode_amp, entity_gt]
        show '>' :: decode num (esc t) = _
        rw [iht]
        exact (decode_cons num _ _ (by decide)).symm
      · show decode num ('&' :: '#' :: '3' :: '9' :: ';' :: esc t) = _
        have en : entity num ('#' :: '3' :: '9' :: ';' :: esc t) = some ('\'', 4) := by
          rw [entity_hash]
          show (num "39".toList).map (fun c => (c, 4)) = _
          rw [h39]; rfl
        rw [decode_amp, en]
        show '\'' :: decode num (esc t) = _
        rw [iht]
        exact (decode_cons num _ _ (by decide)).symm
      · show decode num ('&' :: '#' :: '3' :: '4' :: ';' :: esc t) = _
        have en : entity num ('#' :: '3' :: '4' :: ';' :: esc t) = some ('"', 4) := by
          rw [entity_hash]
          show (num "34".toList).map (fun c => (c, 4)) = _
          rw [h34]; rfl
        rw [decode_amp, en]
        show '"' :: decode num (esc t) = _
        rw [iht]
        exact (decode_cons num _ _ (by decide)).symm

/-- C27: text without character references can be recovered from the escaped text. -/
theorem recovered (num : Text → Option Char) (h39 : num "39".toList = some '\'') (h34 : num "34".toList = some '"') (s : Text)
    (h : ∀ a b, s = a ++ '&' :: b → refAhead b = false) : decode num (escapeString s) = s := by
  rw [meaning_kept num h39 h34 s, decode_plain num s h]

/-! ### Examples and findings -/

/-- The meaning of a decimal number. -/
def decimal (t : Text) : Option Char := if t ≠ [] ∧ t.all Char.isDigit then some (Char.ofNat (Nat.ofDigitChars 10 t 0)) else none

example : decimal "39".toList = some '\'' ∧ decimal "34".toList = some '"' := by decide
example : escapeString "a < b & \"c\" &lt; &#233; &eacute;".toList = "a &lt; b &amp; &#34;c&#34; &lt; &#233; &amp;eacute;".toList := by decide
example : decode decimal "a &lt; b &amp; &#34;c&#34;".toList = "a < b & \"c\"".toList := by decide
example : refAhead " b".toList = false := by decide

/-- Finding: text that looks like a reference is not escaped: `&lt;` and `<` in the source yield the same output, as do `&#60;` in
verbatim text and in normal text: what the author wrote cannot be recovered. -/
theorem finding_ambiguous : escapeString "&lt;".toList = escapeString "<".toList ∧ "&lt;".toList ≠ "<".toList := by decide

/-- Finding: `&#` is kept even if no number follows. -/
theorem finding_bare_hash : escapeString "R&#D".toList = "R&#D".toList := by decide

end Verif.C27

namespace Verif.C28
open Verif.Escape Verif.Entities

theorem digit_ascii (c : Char) (h : c.isDigit = true) : c.toNat < 128 ∧ alnum c = true := by
  simp only [Char.isDigit, Bool.and_eq_true, decide_eq_true_eq] at h
  constructor
  · have := h.2
    have h2 : c.val ≤ 57 := this
    have : c.val.toNat ≤ 57 := h2
    show c.val.toNat < 128
    omega
  · have h1 : '0' ≤ c := h.1
    have h2 : c ≤ '9' := h.2
    simp [alnum, h1, h2]

theorem itoa_digit (n : Nat) : ∀ c ∈ itoa n, c.isDigit = true := fun c hc => Nat.isDigit_of_mem_toDigits (by decide) (by decide) hc

/-- C28: after conversion, every character is an ASCII character. -/
theorem ascii (s : Text) : ∀ c ∈ asciiEntify s, c.toNat < 128 := by
  induction s with
  | nil => intro c h; cases h
  | cons d t ih =>
    intro c h
    have h : c ∈ (if plainASCII d then [d] else "&#".toList ++ itoa d.toNat ++ ";".toList) ++ asciiEntify t := h
    rcases List.mem_append.1 h with h | h
    · split at h
      · rename_i hp
        rw [List.mem_singleton.1 h]
        simp only [plainASCII, Bool.and_eq_true, decide_eq_true_eq] at hp
        exact hp.1
      · rcases List.mem_append.1 h with h | h
        · rcases List.mem_append.1 h with h | h
          · have hh : ∀ c ∈ "&#".toList, c.toNat < 128 := by decide
            exact hh c h
          · exact (digit_ascii c (itoa_digit _ c h)).1
        · have hh : ∀ c ∈ ";".toList, c.toNat < 128 := by decide
          exact hh c h
    · exact ih c h

/-- C28: printable ASCII characters and ASCII white space are unchanged. -/
theorem unchanged (s : Text) (h : ∀ c ∈ s, (32 ≤ c.toNat ∧ c.toNat ≤ 126) ∨ (9 ≤ c.toNat ∧ c.toNat ≤ 13)) : asciiEntify s = s := by
  induction s with
  | nil => rfl
  | cons c t ih =>
    show (if plainASCII c then [c] else _) ++ asciiEntify t = c :: t
    have hp : plainASCII c = true := by
      simp only [plainASCII, Bool.and_eq_true, decide_eq_true_eq, Bool.or_eq_true]
      have := h c (by simp)
      constructor
      · omega
      · exact this
    rw [if_pos hp, ih (fun d hd => h d (by simp [hd]))]; rfl

theorem plain_alnum (c : Char) (h : alnum c = true) : plainASCII c = true := by
  have hr : ∀ (a b : Char), a ≤ c ∧ c ≤ b → a.toNat ≤ c.toNat ∧ c.toNat ≤ b.toNat := fun a b h => ⟨h.1, h.2⟩
  simp only [alnum, Bool.or_eq_true, Bool.and_eq_true, decide_eq_true_eq] at h
  simp only [plainASCII, Bool.and_eq_true, decide_eq_true_eq, Bool.or_eq_true]
  rcases h with (h | h) | h
  · obtain ⟨h1, h2⟩ := hr '0' '9' h
    have e1 : '0'.toNat = 48 := rfl
    have e2 : '9'.toNat = 57 := rfl
    omega
  · obtain ⟨h1, h2⟩ := hr 'a' 'z' h
    have e1 : 'a'.toNat = 97 := rfl
    have e2 : 'z'.toNat = 122 := rfl
    omega
  · obtain ⟨h1, h2⟩ := hr 'A' 'Z' h
    have e1 : 'A'.toNat = 65 := rfl
    have e2 : 'Z'.toNat = 90 := rfl
    omega

theorem entify_plain : ∀ (x t : Text), (∀ c ∈ x, plainASCII c = true) → asciiEntify (x ++ t) = x ++ asciiEntify t
  | [], t, _ => rfl
  | c :: x, t, h => by
    show (if plainASCII c then [c] else _) ++ asciiEntify (x ++ t) = _
    rw [if_pos (h c (by simp)), entify_plain x t (fun d hd => h d (by simp [hd]))]; rfl

theorem entity_number (num : Text → Option Char) (c : Char) (h : num (itoa c.toNat) = some c) (r : Text) :
    decode num ("&#".toList ++ itoa c.toNat ++ ";".toList ++ r) = c :: decode num r := by
  show decode num ('&' :: (('#' :: itoa c.toNat ++ [';']) ++ r)) = _
  rw [decode_amp]
  have e0 : ('#' :: itoa c.toNat ++ [';']) ++ r = '#' :: (itoa c.toNat ++ ';' :: r) := by simp
  rw [e0, entity_hash]
  obtain ⟨s1, s2⟩ := C27.span_unique alnum (itoa c.toNat) (';' :: r) (fun d hd => (digit_ascii d (itoa_digit _ d hd)).2) (by
    intro d hd; cases hd; rfl)
  rw [s1, s2, if_pos (show (';' :: r).head? = some ';' from rfl), h]
  show c :: decode num (('#' :: (itoa c.toNat ++ ';' :: r)).drop ((itoa c.toNat).length + 2)) = _
  congr 1
  rw [List.drop_succ_cons, List.drop_append, List.drop_eq_nil_of_le (by omega)]
  simp

/-- The first character of converted text. -/
theorem head_entify (t : Text) : (asciiEntify t).head? = t.head? ∨ (asciiEntify t).head? = some '&' ∧ ∃ c, t.head? = some c ∧ plainASCII c = false := by
  cases t with
  | nil => exact Or.inl rfl
  | cons c t =>
    show ((if plainASCII c then [c] else "&#".toList ++ itoa c.toNat ++ ";".toList) ++ asciiEntify t).head? = _ ∨ _
    cases hp : plainASCII c with
    | true => left; rfl
    | false =>
      right
      refine ⟨?_, c, rfl, hp⟩
      show ((if plainASCII c then [c] else "&#".toList ++ itoa c.toNat ++ ";".toList) ++ asciiEntify t).head? = _
      rw [hp]; rfl

theorem refAhead_prefix (t x : Text) (r : Text) (h : t = x ++ r) (hx : ∀ c ∈ x, plainASCII c = true) : asciiEntify t = x ++ asciiEntify r := by
  rw [h, entify_plain x r hx]

theorem isPrefixOf_entify : ∀ (x t : Text), (∀ c ∈ x, plainASCII c = true ∧ c ≠ '&') → x.isPrefixOf (asciiEntify t) = x.isPrefixOf t
  | [], t, _ => by simp
  | c :: x, [], h => rfl
  | c :: x, d :: t, h => by
    show List.isPrefixOf (c :: x) ((if plainASCII d then [d] else "&#".toList ++ itoa d.toNat ++ ";".toList) ++ asciiEntify t) = _
    cases hp : plainASCII d with
    | true =>
      show List.isPrefixOf (c :: x) (d :: asciiEntify t) = _
      simp only [List.isPrefixOf]
      rw [isPrefixOf_entify x t (fun e he => h e (by simp [he]))]
    | false =>
      have h1 : (c == d) = false := by
        have : c ≠ d := by rintro rfl; rw [(h c (by simp)).1] at hp; cases hp
        simpa using this
      have h2 : (c == '&') = false := by simpa using (h c (by simp)).2
      show ((c == '&') && _) = ((c == d) && _)
      rw [h1, h2]; rfl

theorem refAhead_entify (t : Text) : refAhead (asciiEntify t) = refAhead t := by
  unfold refAhead
  rw [isPrefixOf_entify _ t (by decide), isPrefixOf_entify _ t (by decide), isPrefixOf_entify _ t (by decide), isPrefixOf_entify _ t (by decide)]

/-- C28: converted text has the same meaning, provided that numeric references are understood. -/
theorem meaning_kept (num : Text → Option Char) (hnum : ∀ c : Char, num (itoa c.toNat) = some c) (s : Text) :
    decode num (asciiEntify s) = decode num s := by
  induction hn : s.length using Nat.strongRecOn generalizing s with
  | _ n ih =>
    cases s with
    | nil => rfl
    | cons c t =>
      have hl : t.length < n := by rw [← hn]; simp
      have iht := ih t.length hl t rfl
      show decode num ((if plainASCII c then [c] else "&#".toList ++ itoa c.toNat ++ ";".toList) ++ asciiEntify t) = _
      by_cases hp : plainASCII c = true
      · rw [if_pos hp, List.singleton_append]
        by_cases hc : c = '&'
        · subst hc
          cases hr : refAhead t with
          | false =>
            rw [decode_amp, decode_amp, entity_none num t hr, entity_none num (asciiEntify t) (by rw [refAhead_entify, hr])]
            dsimp only
            rw [iht]
          | true =>
            rw [decode_amp, decode_amp]
            rcases C27.refAhead_cases t hr with ⟨r, rfl⟩ | ⟨r, rfl⟩ | ⟨r, rfl⟩ | ⟨r, rfl⟩
            · have e' : asciiEntify ('l' :: 't' :: ';' :: r) = 'l' :: 't' :: ';' :: asciiEntify r := entify_plain ['l', 't', ';'] r (by decide)
              rw [e', entity_lt, entity_lt]
              dsimp only
              congr 1
              exact ih r.length (by simp at hl; omega) r rfl
            · have e' : asciiEntify ('g' :: 't' :: ';' :: r) = 'g' :: 't' :: ';' :: asciiEntify r := entify_plain ['g', 't', ';'] r (by decide)
              rw [e', entity_gt, entity_gt]
              dsimp only
              congr 1
              exact ih r.length (by simp at hl; omega) r rfl
            · have e' : asciiEntify ('a' :: 'm' :: 'p' :: ';' :: r) = 'a' :: 'm' :: 'p' :: ';' :: asciiEntify r := entify_plain ['a', 'm', 'p', ';'] r (by decide)
              rw [e', entity_amp, entity_amp]
              dsimp only
              congr 1
              exact ih r.length (by simp at hl; omega) r rfl
            · have e' : asciiEntify ('#' :: r) = '#' :: asciiEntify r := entify_plain ['#'] r (by decide)
              rw [e', entity_hash, entity_hash]
              have hsplit : r.takeWhile alnum ++ r.dropWhile alnum = r := List.takeWhile_append_dropWhile
              have er : asciiEntify r = r.takeWhile alnum ++ asciiEntify (r.dropWhile alnum) := by
                conv => lhs; rw [← hsplit]
                exact entify_plain _ _ (fun d hd => plain_alnum d (C27.mem_takeWhile alnum r d hd))
              have hhead : ∀ d ∈ (asciiEntify (r.dropWhile alnum)).head?, alnum d = false := by
                intro d hd
                rcases head_entify (r.dropWhile alnum) with h | ⟨h, _⟩
                · rw [h] at hd; exact C27.head_dropWhile alnum r d hd
                · rw [h] at hd; cases hd; rfl
              obtain ⟨s1, s2⟩ := C27.span_unique alnum _ _ (fun d hd => C27.mem_takeWhile alnum r d hd) hhead
              rw [← er] at s1 s2
              rw [s1, s2]
              have hsemi : (asciiEntify (r.dropWhile alnum)).head? = some ';' ↔ (r.dropWhile alnum).head? = some ';' := by
                rcases head_entify (r.dropWhile alnum) with h | ⟨h, d, hd, hk⟩
                · rw [h]
                · rw [h, hd]
                  constructor
                  · intro x; cases x
                  · intro x; cases x; revert hk; decide
              have hrec : '#' :: asciiEntify r = asciiEntify ('#' :: r) := e'.symm
              by_cases hs : (r.dropWhile alnum).head? = some ';'
              · rw [if_pos hs, if_pos (hsemi.2 hs)]
                cases hnum' : num (r.takeWhile alnum) with
                | none =>
                  show '&' :: decode num ('#' :: asciiEntify r) = '&' :: decode num ('#' :: r)
                  rw [hrec, iht]
                | some ch =>
                  show ch :: decode num (('#' :: asciiEntify r).drop ((r.takeWhile alnum).length + 2)) =
                    ch :: decode num (('#' :: r).drop ((r.takeWhile alnum).length + 2))
                  congr 1
                  cases hd : r.dropWhile alnum with
                  | nil => rw [hd] at hs; cases hs
                  | cons x r' =>
                    rw [hd] at hs
                    cases hs
                    have d1 : ('#' :: r).drop ((r.takeWhile alnum).length + 2) = r' := by
                      conv => lhs; arg 2; rw [← hsplit, hd]
                      show (r.takeWhile alnum ++ ';' :: r').drop ((r.takeWhile alnum).length + 1) = r'
                      rw [List.drop_append]; simp
                    have ex : asciiEntify (';' :: r') = ';' :: asciiEntify r' := entify_plain [';'] r' (by decide)
                    have d2 : ('#' :: asciiEntify r).drop ((r.takeWhile alnum).length + 2) = asciiEntify r' := by
                      conv => lhs; arg 2; rw [er, hd, ex]
                      show (r.takeWhile alnum ++ ';' :: asciiEntify r').drop ((r.takeWhile alnum).length + 1) = asciiEntify r'
                      rw [List.drop_append]; simp
                    rw [d1, d2]
                    have hlr : r'.length < n := by
                      have : r'.length < r.length := by
                        conv => rhs; rw [← hsplit, hd]
                        simp
                        omega
                      simp at hl
                      omega
                    exact ih r'.length hlr r' rfl
              · rw [if_neg hs, if_neg (fun x => hs (hsemi.1 x))]
                show '&' :: decode num ('#' :: asciiEntify r) = '&' :: decode num ('#' :: r)
                rw [hrec, iht]
        · rw [decode_cons num c _ hc, decode_cons num c _ hc, iht]
      · rw [if_neg hp, entity_number num c (hnum c), iht]
        have hc : c ≠ '&' := by rintro rfl; exact hp (by decide)
        exact (decode_cons num c t hc).symm

/-- C28: text without character references can be recovered from the converted text. -/
theorem recovered (num : Text → Option Char) (hnum : ∀ c : Char, num (itoa c.toNat) = some c) (s : Text)
    (h : ∀ a b, s = a ++ '&' :: b → refAhead b = false) : decode num (asciiEntify s) = s := by
  rw [meaning_kept num hnum s, decode_plain num s h]

/-- Decimal numbers are understood (the hypothesis above). -/
theorem decimal_understood (c : Char) : C27.decimal (itoa c.toNat) = some c := by
  unfold C27.decimal
  have hne : itoa c.toNat ≠ [] := Nat.toDigits_ne_nil
  have hd : (itoa c.toNat).all Char.isDigit = true := List.all_eq_true.2 (itoa_digit _)
  rw [if_pos ⟨hne, hd⟩]
  unfold itoa
  rw [Nat.ofDigitChars_toDigits (by decide) (by decide)]
  congr 1
  exact Char.ofNat_toNat c

/-- C28: with Unicode output, text is left alone; otherwise it is converted. -/
theorem rendered (num : Text → Option Char) (hnum : ∀ c : Char, num (itoa c.toNat) = some c) (useUnicode : Bool) (s : Text) :
    decode num (renderString useUnicode s) = decode num s ∧ (useUnicode = false → ∀ c ∈ renderString useUnicode s, c.toNat < 128) := by
  cases useUnicode with
  | true => exact ⟨rfl, by intro h; cases h⟩
  | false => exact ⟨meaning_kept num hnum s, fun _ => ascii s⟩

example : asciiEntify "a é € \u0007\n".toList = "a &#233; &#8364; &#7;\n".toList := by decide

end Verif.C28
