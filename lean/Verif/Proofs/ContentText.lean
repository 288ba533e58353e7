import Verif.Spec.Content
import Verif.Props.Escape
import Verif.Proofs.RenderText
/-!
Facts on texts that contain pieces in order (C52).
-/
namespace Verif.Rend
open Verif (Text)

/-- White space does not matter for the pieces. -/
structure NoSpace (S : Piece → Text → Prop) : Prop where
  ne : ∀ p v, S p v → v ≠ []
  space : ∀ p v, S p v → ∀ c ∈ v, goSpace c = false

/-- As it is. -/
def Raw (p : Piece) (v : Text) : Prop := p = .word v ∧ v ≠ [] ∧ ∀ c ∈ v, goSpace c = false

theorem raw_noSpace : NoSpace Raw := ⟨fun _ _ h => h.2.1, fun _ _ h => h.2.2⟩

theorem shownAs_ne {c x} (h : shownAs c x) : x ≠ [] := by
  unfold shownAs at h
  rcases h with h | h | h | h | h | h
  · rw [h]; simp
  · rw [h]; simp
  · rw [h.2]; simp
  · rw [h.2]; simp
  · rw [h.2]; simp
  · rw [h.2]; simp

theorem spelled_self : ∀ w : Text, Spelled w w
  | [] => .nil
  | c :: w => by have := Spelled.cons (c := c) (x := [c]) (Or.inl rfl) (spelled_self w); exact this

theorem symbols_ne : ∀ p ∈ symbols, p.2 ≠ [] := by decide +kernel
theorem symbols_space : ∀ p ∈ symbols, ∀ c ∈ p.2, goSpace c = false := by decide +kernel

theorem mem_of_lookup {k v : Text} : ∀ {l : List (Text × Text)}, l.lookup k = some v → (k, v) ∈ l
  | [], h => by cases h
  | p :: l, h => by
    rw [List.lookup_cons] at h
    split at h
    · rename_i e
      cases h
      have : k = p.1 := by simpa using e
      subst this
      simp
    · exact List.mem_cons_of_mem _ (mem_of_lookup h)

theorem shows_noSpace : NoSpace Shows where
  ne p v h := by
    cases p with
    | word w =>
      obtain ⟨h0, h1, _⟩ := h
      cases h1 with
      | nil => exact absurd rfl h0
      | cons hx _ => intro e; exact shownAs_ne hx (List.append_eq_nil_iff.mp e).1
    | symbol n => exact symbols_ne _ (mem_of_lookup h.1)
  space p v h := by
    cases p with
    | word w => exact h.2.2
    | symbol n => exact h.2

section
variable {S : Piece → Text → Prop} {ps qs : List Piece} {t u : Text}

theorem InOrderBy.before (a : Text) (h : InOrderBy S ps t) : InOrderBy S ps (a ++ t) := by
  cases h with
  | nil => exact .nil
  | @cons p ps b v t hp h =>
    have := InOrderBy.cons (before := a ++ b) hp h
    rwa [List.append_assoc, List.append_assoc, ← List.append_assoc b] at this

theorem InOrderBy.after (b : Text) (h : InOrderBy S ps t) : InOrderBy S ps (t ++ b) := by
  induction h with
  | nil => exact .nil
  | cons hp _ ih => rw [List.append_assoc]; exact .cons hp ih

theorem InOrderBy.append (h : InOrderBy S ps t) (h' : InOrderBy S qs u) : InOrderBy S (ps ++ qs) (t ++ u) := by
  induction h with
  | nil => exact h'.before _
  | cons hp _ ih => rw [List.append_assoc]; exact .cons hp ih

theorem InOrderBy.one {p v} (h : S p v) : InOrderBy S [p] v := by
  have := InOrderBy.cons (before := []) (after := []) h .nil
  simpa using this

theorem InOrderBy.sublist (h : InOrderBy S ps t) (hq : qs.Sublist ps) : InOrderBy S qs t := by
  induction h generalizing qs with
  | nil => rw [List.sublist_nil.mp hq]; exact .nil
  | cons hp _ ih =>
    cases hq with
    | cons _ hq => exact (ih hq).before _
    | cons_cons _ hq => exact .cons hp (ih hq)

/-- An empty text says nothing. -/
theorem InOrderBy.empty (hS : NoSpace S) (h : InOrderBy S ps []) : ps = [] := by
  generalize e : ([] : Text) = t at h
  cases h with
  | nil => rfl
  | cons hp _ =>
    exfalso
    have e := e.symm
    rw [List.append_eq_nil_iff, List.append_eq_nil_iff] at e
    exact hS.ne _ _ hp e.1.2

theorem InOrderBy.imp {S' : Piece → Text → Prop} (hS : ∀ p v, S p v → S' p v) (h : InOrderBy S ps t) : InOrderBy S' ps t := by
  induction h with
  | nil => exact .nil
  | cons hp _ ih => exact .cons (hS _ _ hp) ih

end

/-- `u` is `t`, with arbitrary texts in place of white space. -/
inductive Ws : Text → Text → Prop
  | nil : Ws [] []
  | keep {c t u} : Ws t u → Ws (c :: t) (c :: u)
  | space {c t u} (x : Text) : goSpace c = true → Ws t u → Ws (c :: t) (x ++ u)

theorem Ws.refl : ∀ t : Text, Ws t t
  | [] => .nil
  | _ :: t => .keep (Ws.refl t)

theorem Ws.append {t u t' u' : Text} (h : Ws t u) (h' : Ws t' u') : Ws (t ++ t') (u ++ u') := by
  induction h with
  | nil => exact h'
  | keep _ ih => exact .keep ih
  | space x hc _ ih => rw [List.append_assoc]; exact .space x hc ih

theorem Ws.spaces : ∀ {t : Text}, (∀ c ∈ t, goSpace c = true) → Ws t []
  | [], _ => .nil
  | c :: t, h => by
    have := Ws.space (c := c) [] (h c (by simp)) (Ws.spaces fun d hd => h d (List.mem_cons_of_mem _ hd))
    exact this

/-- The part of the text that comes after a prefix without white space. -/
theorem Ws.strip {v t u : Text} (hv : ∀ c ∈ v, goSpace c = false) (h : Ws (v ++ t) u) : ∃ u', u = v ++ u' ∧ Ws t u' := by
  induction v generalizing u with
  | nil => exact ⟨u, rfl, h⟩
  | cons c v ih =>
    have h1 : Ws (c :: (v ++ t)) u := h
    clear h
    cases h1 with
    | keep h =>
      obtain ⟨u', e, h'⟩ := ih (fun d hd => hv d (List.mem_cons_of_mem _ hd)) h
      exact ⟨u', by rw [e]; rfl, h'⟩
    | space x hc h => rw [hv c (by simp)] at hc; cases hc

theorem Ws.split {a t u : Text} (h : Ws (a ++ t) u) : ∃ x u', u = x ++ u' ∧ Ws t u' := by
  induction a generalizing u with
  | nil => exact ⟨[], u, rfl, h⟩
  | cons c a ih =>
    have h1 : Ws (c :: (a ++ t)) u := h
    clear h
    cases h1 with
    | keep h =>
      obtain ⟨x, u', e, h'⟩ := ih h
      exact ⟨c :: x, u', by rw [e]; rfl, h'⟩
    | space x hc h =>
      obtain ⟨y, u', e, h'⟩ := ih h
      exact ⟨x ++ y, u', by rw [e, List.append_assoc], h'⟩

theorem InOrderBy.ws {S : Piece → Text → Prop} (hS : NoSpace S) {ps t u} (h : InOrderBy S ps t) (hu : Ws t u) : InOrderBy S ps u := by
  induction h generalizing u with
  | nil => exact .nil
  | cons hp _ ih =>
    rw [List.append_assoc] at hu
    obtain ⟨x, u1, rfl, h1⟩ := hu.split
    obtain ⟨u2, rfl, h2⟩ := Ws.strip (hS.space _ _ hp) h1
    rw [← List.append_assoc]
    exact .cons hp (ih h2)

theorem ws_trimRight {p : Char → Bool} (hp : ∀ c, p c = true → goSpace c = true) (t : Text) : Ws t (trimRight p t) := by
  obtain ⟨b, e, hb⟩ := trimRight_split p t
  have := (Ws.refl (trimRight p t)).append (Ws.spaces fun c hc => hp c (hb c hc))
  rwa [← e, List.append_nil] at this

theorem ws_trim {p : Char → Bool} (hp : ∀ c, p c = true → goSpace c = true) (t : Text) : Ws t (trim p t) := by
  obtain ⟨a, b, e, ha, hb⟩ := trim_split p t
  have := ((Ws.spaces fun c hc => hp c (ha c hc)).append (Ws.refl (trim p t))).append (Ws.spaces fun c hc => hp c (hb c hc))
  rwa [← e, List.append_nil, List.nil_append] at this

theorem space_nl (c : Char) (h : (c == '\n') = true) : goSpace c = true := by
  have : c = '\n' := by simpa using h
  subst this; decide
theorem space_sp (c : Char) (h : (c == ' ') = true) : goSpace c = true := by
  have : c = ' ' := by simpa using h
  subst this; decide

theorem ws_replace (x t : Text) : Ws t (replaceAll "\n".toList x t) := by
  show Ws t (replaceAll ['\n'] x t)
  rw [replace_one]
  induction t with
  | nil => exact .nil
  | cons c t ih =>
    rw [List.flatMap_cons]
    split
    · rename_i h; subst h; exact .space _ (by decide) ih
    · exact .keep ih

theorem ws_join {f : Text → Text} (hf : ∀ l, Ws l (f l)) : ∀ ls : List Text, Ws (joinWith "\n".toList ls) (joinWith "\n".toList (ls.map f))
  | [] => .nil
  | [l] => hf l
  | l :: l' :: ls => ((hf l).append (Ws.refl "\n".toList)).append (ws_join hf (l' :: ls))

theorem ws_trimSpaces (t : Text) : Ws t (trimSpaces t) := by
  have := ws_join (ws_trim (p := goSpace) fun _ h => h) (splitNL t)
  rwa [join_splitNL] at this

theorem ws_trimSuffix (t : Text) : Ws t (Tmpl.trimSuffix "\n".toList t) := by
  unfold Tmpl.trimSuffix
  split
  · rename_i h
    obtain ⟨u, rfl⟩ := List.isSuffixOf_iff_suffix.mp h
    have : (u ++ "\n".toList).take ((u ++ "\n".toList).length - "\n".toList.length) = u := List.take_left' (by simp)
    rw [this]
    have := (Ws.refl u).append (Ws.spaces (t := "\n".toList) (by decide))
    rwa [List.append_nil] at this
  · exact Ws.refl t

theorem ws_dropWhile {p : Char → Bool} (hp : ∀ c, p c = true → goSpace c = true) (t : Text) : Ws t (t.dropWhile p) := by
  obtain ⟨a, e, ha⟩ := dropWhile_split p t
  have := (Ws.spaces fun c hc => hp c (ha c hc)).append (Ws.refl (t.dropWhile p))
  rwa [← e, List.nil_append] at this

theorem ws_drop : ∀ (n : Nat) (l : Text), n ≤ heading l → Ws l (l.drop n)
  | 0, l, _ => Ws.refl l
  | n + 1, [], _ => .nil
  | n + 1, c :: l, h => by
    unfold heading at h
    rw [List.takeWhile_cons] at h
    split at h
    · rename_i hc
      exact .space [] (space_sp c hc) (ws_drop n l (by unfold heading; simpa using h))
    · simp at h

theorem ws_join_mem {f : Text → Text} : ∀ ls : List Text, (∀ l ∈ ls, Ws l (f l)) → Ws (joinWith "\n".toList ls) (joinWith "\n".toList (ls.map f))
  | [], _ => .nil
  | [l], h => h l (by simp)
  | l :: l' :: ls, h => ((h l (by simp)).append (Ws.refl "\n".toList)).append (ws_join_mem (l' :: ls) fun x hx => h x (List.mem_cons_of_mem _ hx))

theorem ws_adjust (t : Text) : Ws t (adjustHeadingSpaces t) := by
  unfold adjustHeadingSpaces
  have e := join_splitNL t
  split
  · rename_i l hl
    rw [hl] at e
    have e : l = t := e
    rw [e]
    exact ws_dropWhile space_sp t
  · generalize splitNL t = ls at e
    have := ws_join_mem (f := fun l => l.drop ((ls.map heading).foldl Nat.min ((ls.map heading).headD 0))) ls fun l hl =>
      ws_drop _ _ ((foldl_min_le _ _).2 _ (List.mem_map.mpr ⟨l, hl, rfl⟩))
    rwa [e] at this

/-- `u` is the spelling of `t`, where texts without white space are spelled without white space. -/
inductive Img : Text → Text → Prop
  | nil : Img [] []
  | cons {c x t u} : (goSpace c = false → shownAs c x ∧ ∀ d ∈ x, goSpace d = false) → Img t u → Img (c :: t) (x ++ u)

theorem Img.refl : ∀ t : Text, Img t t
  | [] => .nil
  | c :: t => by
    have := Img.cons (c := c) (x := [c]) (fun h => ⟨Or.inl rfl, fun d hd => by rw [List.mem_singleton] at hd; rw [hd]; exact h⟩) (Img.refl t)
    exact this

theorem Img.split {a t u : Text} (h : Img (a ++ t) u) : ∃ x u', u = x ++ u' ∧ Img t u' := by
  induction a generalizing u with
  | nil => exact ⟨[], u, rfl, h⟩
  | cons c a ih =>
    have h1 : Img (c :: (a ++ t)) u := h
    clear h
    cases h1 with
    | cons _ h =>
      obtain ⟨y, u', e, h'⟩ := ih h
      exact ⟨_ ++ y, u', by rw [e, List.append_assoc], h'⟩

theorem Img.strip {v t u : Text} (hv : ∀ c ∈ v, goSpace c = false) (h : Img (v ++ t) u) :
    ∃ x u', u = x ++ u' ∧ Spelled v x ∧ (∀ d ∈ x, goSpace d = false) ∧ Img t u' := by
  induction v generalizing u with
  | nil => exact ⟨[], u, rfl, .nil, fun _ h => (nomatch h), h⟩
  | cons c v ih =>
    have h1 : Img (c :: (v ++ t)) u := h
    clear h
    cases h1 with
    | cons hc h =>
      obtain ⟨y, u', e, hs, hy, h'⟩ := ih (fun d hd => hv d (List.mem_cons_of_mem _ hd)) h
      obtain ⟨h1, h2⟩ := hc (hv c (by simp))
      refine ⟨_ ++ y, u', by rw [e, List.append_assoc], .cons h1 hs, fun d hd => ?_, h'⟩
      rcases List.mem_append.mp hd with hd | hd
      · exact h2 d hd
      · exact hy d hd

/-- What a text contains as it is, its spelling says. -/
theorem InOrderBy.img {ps t u} (h : InOrderBy Raw ps t) (hu : Img t u) : InOrder ps u := by
  induction h generalizing u with
  | nil => exact .nil
  | cons hp _ ih =>
    rw [List.append_assoc] at hu
    obtain ⟨x, u1, rfl, h1⟩ := hu.split
    obtain ⟨y, u2, rfl, hs, hy, h2⟩ := Img.strip hp.2.2 h1
    rw [← List.append_assoc]
    obtain ⟨rfl, hne, _⟩ := hp
    exact .cons ⟨hne, hs, hy⟩ (ih h2)

theorem raw_words (t : Text) : InOrderBy Raw (texts t) t ∧ ∀ d t', t = d :: t' → goSpace d = false →
    ∃ w ws r, words t = (d :: w) :: ws ∧ t = (d :: w) ++ r ∧ InOrderBy Raw (ws.map .word) r ∧ ∀ x ∈ d :: w, goSpace x = false := by
  induction t with
  | nil => exact ⟨.nil, fun _ _ h => nomatch h⟩
  | cons c t ih =>
    obtain ⟨ih1, ih2⟩ := ih
    unfold texts
    cases hc : goSpace c with
    | true =>
      refine ⟨?_, fun d t' e hd => ?_⟩
      · unfold words; rw [hc]; exact ih1.before [c]
      · cases e; rw [hc] at hd; cases hd
    | false =>
      have key : ∃ w ws r, words (c :: t) = (c :: w) :: ws ∧ c :: t = (c :: w) ++ r ∧ InOrderBy Raw (ws.map .word) r ∧
          ∀ x ∈ c :: w, goSpace x = false := by
        have h1 : ∀ x ∈ [c], goSpace x = false := fun d hd => by rw [List.mem_singleton] at hd; rw [hd]; exact hc
        cases t with
        | nil => exact ⟨[], [], [], by unfold words; rw [hc]; rfl, rfl, .nil, h1⟩
        | cons d t =>
          cases hd : goSpace d with
          | true => exact ⟨[], words (d :: t), d :: t, by conv => lhs; unfold words
                                                          rw [hc]; dsimp only; rw [hd]; rfl, rfl, ih1, h1⟩
          | false =>
            obtain ⟨w, ws, r, e1, e2, e3, e4⟩ := ih2 d t rfl hd
            refine ⟨d :: w, ws, r, ?_, by rw [e2]; rfl, e3, fun x hx => ?_⟩
            · conv => lhs; unfold words
              rw [hc]; dsimp only; rw [hd, e1]; rfl
            · rcases List.mem_cons.mp hx with rfl | hx
              · exact hc
              · exact e4 x hx
      obtain ⟨w, ws, r, e1, e2, e3, e4⟩ := key
      refine ⟨?_, fun d t' e hd => ?_⟩
      · rw [e1, e2]
        exact (InOrderBy.one ⟨rfl, by simp, e4⟩).append e3
      · cases e; exact ⟨w, ws, r, e1, e2, e3, e4⟩

theorem raw_texts (t : Text) : InOrderBy Raw (texts t) t := (raw_words t).1

theorem shows_texts {t u : Text} (h : Img t u) : InOrder (texts t) u := (raw_texts t).img h

theorem img_esc (t : Text) : Img t (C27.esc t) := by
  induction t with
  | nil => exact .nil
  | cons c t ih =>
    refine .cons (fun hc => ?_) ih
    unfold C27.esc1
    split
    · rename_i e; subst e
      split
      · exact ⟨Or.inl rfl, by decide⟩
      · exact ⟨Or.inr (Or.inr (Or.inl ⟨rfl, rfl⟩)), by decide⟩
    · split
      · rename_i e; subst e; exact ⟨Or.inr (Or.inr (Or.inr (Or.inl ⟨rfl, rfl⟩))), by decide⟩
      · split
        · rename_i e; subst e; exact ⟨Or.inr (Or.inr (Or.inr (Or.inr (Or.inl ⟨rfl, rfl⟩)))), by decide⟩
        · split
          · rename_i e; subst e; exact ⟨Or.inr (Or.inl (by decide)), by decide⟩
          · split
            · rename_i e; subst e; exact ⟨Or.inr (Or.inl (by decide)), by decide⟩
            · exact ⟨Or.inl rfl, fun d hd => by rw [List.mem_singleton] at hd; rw [hd]; exact hc⟩

theorem img_escape (t : Text) : Img t (Escape.escapeString t) := by
  rw [C27.escape_esc]; exact img_esc t

theorem img_htmlEscape (t : Text) : Img t (htmlEscape t) := by
  unfold htmlEscape
  induction t with
  | nil => exact .nil
  | cons c t ih =>
    rw [List.flatMap_cons]
    refine .cons (fun hc => ?_) ih
    split
    · rename_i e; subst e; exact ⟨Or.inr (Or.inr (Or.inr (Or.inr (Or.inr ⟨rfl, rfl⟩)))), by decide⟩
    · split
      · rename_i e; subst e; exact ⟨Or.inr (Or.inl (by decide)), by decide⟩
      · split
        · rename_i e; subst e; exact ⟨Or.inr (Or.inl (by decide)), by decide⟩
        · split
          · rename_i e; subst e; exact ⟨Or.inr (Or.inr (Or.inl ⟨rfl, rfl⟩)), by decide⟩
          · split
            · rename_i e; subst e; exact ⟨Or.inr (Or.inr (Or.inr (Or.inl ⟨rfl, rfl⟩))), by decide⟩
            · split
              · rename_i e; subst e; exact ⟨Or.inr (Or.inr (Or.inr (Or.inr (Or.inl ⟨rfl, rfl⟩)))), by decide⟩
              · exact ⟨Or.inl rfl, fun d hd => by rw [List.mem_singleton] at hd; rw [hd]; exact hc⟩

theorem itoa_space (n : Nat) : ∀ d ∈ itoa n, goSpace d = false := by
  intro d hd
  have h := C28.itoa_digit n d hd
  have h1 : 48 ≤ d.toNat ∧ d.toNat ≤ 57 := by
    unfold Char.isDigit at h
    rw [Bool.and_eq_true, decide_eq_true_iff, decide_eq_true_iff] at h
    exact h
  obtain ⟨h1, h2⟩ := h1
  unfold goSpace
  generalize d.toNat = k at h1 h2
  simp
  omega

theorem img_entify (t : Text) : Img t (Escape.asciiEntify t) := by
  induction t with
  | nil => exact .nil
  | cons c t ih =>
    refine .cons (fun hc => ?_) ih
    split
    · exact ⟨Or.inl rfl, fun d hd => by rw [List.mem_singleton] at hd; rw [hd]; exact hc⟩
    · refine ⟨Or.inr (Or.inl rfl), fun d hd => ?_⟩
      rcases List.mem_append.mp hd with hd | hd
      · rcases List.mem_append.mp hd with hd | hd
        · exact (by decide : ∀ d ∈ "&#".toList, goSpace d = false) d hd
        · exact itoa_space _ d hd
      · exact (by decide : ∀ d ∈ ";".toList, goSpace d = false) d hd

theorem img_string (b : Bool) (t : Text) : Img t (Escape.renderString b t) := by
  unfold Escape.renderString
  split
  · exact Img.refl t
  · exact img_entify t

end Verif.Rend
