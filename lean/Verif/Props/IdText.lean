import Verif.Model.Ids
import Mathlib.Data.List.SplitOn
/-! C15: the text of generated identifiers. -/
namespace Verif.C15

/-! ### Specification -/

/-- The words of a title: maximal groups of letters and digits between blanks, hyphens and dots; all other
characters are ignored. -/
def words (alnum : Char → Bool) (t : Text) : List Text :=
  ((t.filter (fun c => alnum c || isSepChar c)).splitOnP (fun c => !alnum c)).filter (fun w => !w.isEmpty)

/-- The first character of the title that is not ignored (leading blanks aside) is a hyphen, a dot or a
blank. -/
def startsWithSep (alnum : Char → Bool) (t : Text) : Bool :=
  match ((t.dropWhile (fun c => decide (c = ' '))).filter (fun c => alnum c || isSepChar c)).head? with
  | some c => !alnum c
  | none => false

/-- The words joined by the separator. -/
def body (alnum : Char → Bool) (sep t : Text) : Text :=
  if words alnum t = [] then []
  else (if startsWithSep alnum t then sep else []) ++ sep.intercalate (words alnum t)

/-! ### Characters -/

theorem mem_trimSuffix {suf t : Text} {c : Char} (h : c ∈ trimSuffix suf t) : c ∈ t := by
  unfold trimSuffix at h
  split at h
  · exact List.mem_of_mem_take h
  · exact h

theorem mem_replaceAllAux {old new : Text} {c : Char} : ∀ (t : Text) (n : Nat), c ∈ replaceAllAux old new n t → c ∈ t ∨ c ∈ new
  | [], n, h => by cases n <;> simp [replaceAllAux] at h
  | d :: t, n + 1, h => by
    have := mem_replaceAllAux t n h
    exact this.imp (List.mem_cons_of_mem _) (fun h => h)
  | d :: t, 0, h => by
    unfold replaceAllAux at h
    split at h
    · rcases List.mem_append.1 h with h | h
      · exact Or.inr h
      · exact (mem_replaceAllAux t _ h).imp (List.mem_cons_of_mem _) (fun h => h)
    · rcases List.mem_cons.1 h with h | h
      · exact Or.inl (h ▸ List.mem_cons_self)
      · exact (mem_replaceAllAux t _ h).imp (List.mem_cons_of_mem _) (fun h => h)

theorem mem_replaceAll {old new t : Text} {c : Char} (h : c ∈ replaceAll old new t) : c ∈ t ∨ c ∈ new := by
  unfold replaceAll at h
  split at h
  · rcases List.mem_append.1 h with h | h
    · exact Or.inr h
    · obtain ⟨d, hd, h⟩ := List.mem_flatMap.1 h
      rcases List.mem_cons.1 h with h | h
      · exact Or.inl (h ▸ hd)
      · exact Or.inr h
  · exact mem_replaceAllAux t 0 h

theorem mem_dedupSep {sep t : Text} {c : Char} (h : c ∈ dedupSep sep t) : c ∈ t ∨ c ∈ sep :=
  (mem_replaceAll h).imp mem_trimSuffix (fun h => h)

theorem mem_replaceNonAlnum {alnum : Char → Bool} {sep : Text} {c : Char} : ∀ (t : Text) (b : Bool),
    c ∈ replaceNonAlnum alnum sep b t → (alnum c = true ∧ c ∈ t) ∨ c ∈ sep
  | [], b, h => by simp [replaceNonAlnum] at h
  | d :: t, b, h => by
    unfold replaceNonAlnum at h
    split at h
    · rename_i hd
      rcases List.mem_cons.1 h with h | h
      · exact Or.inl ⟨h ▸ hd, h ▸ List.mem_cons_self⟩
      · exact (mem_replaceNonAlnum t _ h).imp (fun h => ⟨h.1, List.mem_cons_of_mem _ h.2⟩) (fun h => h)
    · split at h
      · rcases List.mem_append.1 h with h | h
        · exact Or.inr h
        · exact (mem_replaceNonAlnum t _ h).imp (fun h => ⟨h.1, List.mem_cons_of_mem _ h.2⟩) (fun h => h)
      · exact (mem_replaceNonAlnum t _ h).imp (fun h => ⟨h.1, List.mem_cons_of_mem _ h.2⟩) (fun h => h)

mutual
theorem mem_replElems {alnum : Char → Bool} {sep : Text} {c : Char} : ∀ (es : List TElem) (b : Bool),
    c ∈ replElems alnum sep b es → alnum c = true ∨ c ∈ sep
  | [], b, h => by simp [replElems] at h
  | e :: es, b, h => by
    unfold replElems at h
    rcases List.mem_append.1 h with h | h
    · exact mem_replElem e b h
    · exact mem_replElems es false h

theorem mem_replElem {alnum : Char → Bool} {sep : Text} {c : Char} : ∀ (e : TElem) (b : Bool),
    c ∈ replElem alnum sep b e → alnum c = true ∨ c ∈ sep
  | .quoted es, b, h => by
    unfold replElem at h
    rcases List.mem_append.1 h with h | h
    · rcases mem_dedupSep h with h | h
      · exact mem_replElems es true h
      · exact Or.inr h
    · exact Or.inr h
  | .str t, b, h => by
    unfold replElem at h
    exact (mem_replaceNonAlnum _ _ h).imp And.left (fun h => h)
  | .link (some l), b, h => by
    unfold replElem at h
    rcases List.mem_append.1 h with h | h
    · exact (mem_replaceNonAlnum _ _ h).imp And.left (fun h => h)
    · exact Or.inr h
  | .link none, b, h => by simp [replElem] at h
  | .icon t, b, h => by
    unfold replElem at h
    rcases List.mem_append.1 h with h | h
    · exact (mem_replaceNonAlnum _ _ h).imp And.left (fun h => h)
    · exact Or.inr h
  | .other n, b, h => by simp [replElem] at h
end

/-- A generated identifier starts with the prefix, and apart from the prefix it consists of letters, digits and the
characters of the separator only, for every title. -/
theorem safe_characters (alnum : Char → Bool) (pre sep : Text) (title : List TElem) :
    pre <+: titleID alnum pre sep title ∧
    ∃ b : Text, (∀ c ∈ b, alnum c = true ∨ c ∈ sep) ∧
      (titleID alnum pre sep title = pre ++ b ∨ titleID alnum pre sep title = b) := by
  have hb : ∀ c ∈ trimSuffix sep (dedupSep sep (replElems alnum sep true title)), alnum c = true ∨ c ∈ sep := by
    intro c hc
    rcases mem_dedupSep (mem_trimSuffix hc) with h | h
    · exact mem_replElems title true h
    · exact Or.inr h
  unfold titleID
  dsimp only
  split
  · rename_i h
    exact ⟨List.isPrefixOf_iff_prefix.1 h, _, hb, Or.inr rfl⟩
  · exact ⟨List.prefix_append _ _, _, hb, Or.inl rfl⟩

/-! ### Plain titles -/

/-- The replacement of a text given as pieces between separator characters. -/
def glue (sep : Text) : Bool → List Text → Text
  | _, [] => []
  | _, [s] => s
  | b, s :: s' :: S => s ++ (if b && s.isEmpty then [] else sep) ++ glue sep true (s' :: S)

theorem replace_cons (alnum : Char → Bool) (sep : Text) (b : Bool) (c : Char) (t : Text) : replaceNonAlnum alnum sep b (c :: t) =
    if alnum c then c :: replaceNonAlnum alnum sep false t
    else if !b && isSepChar c then sep ++ replaceNonAlnum alnum sep true t
    else replaceNonAlnum alnum sep b t := rfl

theorem replace_filter (alnum : Char → Bool) (sep : Text) : ∀ (t : Text) (b : Bool),
    replaceNonAlnum alnum sep b t = replaceNonAlnum alnum sep b (t.filter (fun c => alnum c || isSepChar c))
  | [], b => rfl
  | c :: t, b => by
    by_cases h1 : alnum c = true
    · rw [List.filter_cons_of_pos (by simp [h1])]
      unfold replaceNonAlnum
      rw [if_pos h1, if_pos h1, ← replace_filter]
    · by_cases h2 : isSepChar c = true
      · rw [List.filter_cons_of_pos (by simp [h2])]
        unfold replaceNonAlnum
        rw [if_neg h1, if_neg h1, ← replace_filter, ← replace_filter]
      · rw [List.filter_cons_of_neg (by simp [h1, h2])]
        rw [← replace_filter alnum sep t b]
        rw [replace_cons, if_neg h1, if_neg (by simp [h2])]

theorem splitOnP_ne_nil' (p : Char → Bool) (t : Text) : ∃ s S, t.splitOnP p = s :: S := by
  cases h : t.splitOnP p with
  | nil => exact absurd h (List.splitOnP_ne_nil p t)
  | cons s S => exact ⟨s, S, rfl⟩

theorem glue_modifyHead (sep : Text) (c : Char) (b : Bool) (s : Text) (S : List Text) :
    glue sep b ((c :: s) :: S) = c :: glue sep false (s :: S) := by
  cases S <;> simp [glue]

theorem replace_glue (alnum : Char → Bool) (sep : Text) : ∀ (t : Text) (b : Bool), (∀ c ∈ t, (alnum c || isSepChar c) = true) →
    replaceNonAlnum alnum sep b t = glue sep b (t.splitOnP (fun c => !alnum c))
  | [], b, _ => by cases b <;> simp [replaceNonAlnum, glue]
  | c :: t, b, h => by
    obtain ⟨s, S, e⟩ := splitOnP_ne_nil' (fun c => !alnum c) t
    have ih := fun b => replace_glue alnum sep t b (fun x hx => h x (List.mem_cons_of_mem _ hx))
    rw [List.splitOnP_cons]
    unfold replaceNonAlnum
    by_cases h1 : alnum c = true
    · rw [if_pos h1, ih, e]
      simp only [h1, Bool.not_true, Bool.false_eq_true, if_false, List.modifyHead_cons]
      rw [glue_modifyHead]
    · have h2 : isSepChar c = true := by simpa [h1] using h c List.mem_cons_self
      rw [if_neg h1, ih, ih, e]
      simp only [h1, Bool.not_false, if_true, h2, Bool.and_true]
      cases b <;> simp [glue]

theorem glue_true (sep : Text) : ∀ (S : List Text), S ≠ [] →
    ∃ tr : Text, (tr = [] ∨ (tr = sep ∧ S.filter (fun w => !w.isEmpty) ≠ [])) ∧
      glue sep true S = sep.intercalate (S.filter (fun w => !w.isEmpty)) ++ tr
  | [], h => absurd rfl h
  | [s], _ => by
    refine ⟨[], Or.inl rfl, ?_⟩
    cases s <;> simp [glue, List.filter, List.intercalate]
  | s :: s' :: S, _ => by
    obtain ⟨tr, htr, e⟩ := glue_true sep (s' :: S) (by simp)
    cases s with
    | nil =>
      refine ⟨tr, ?_, ?_⟩
      · simpa using htr
      · unfold glue; rw [e]; simp
    | cons c s =>
      have hg : glue sep true ((c :: s) :: s' :: S) = (c :: s) ++ sep ++ glue sep true (s' :: S) := by simp [glue]
      rw [hg, e]
      rw [List.filter_cons_of_pos (by simp)]
      cases hw : (s' :: S).filter (fun w => !w.isEmpty) with
      | nil =>
        rw [hw] at htr
        have : tr = [] := by rcases htr with h | h; exact h; exact absurd rfl h.2
        exact ⟨sep, Or.inr ⟨rfl, by simp⟩, by simp [this, List.intercalate]⟩
      | cons w ws =>
        refine ⟨tr, ?_, ?_⟩
        · rcases htr with h | h
          · exact Or.inl h
          · exact Or.inr ⟨h.1, by simp⟩
        · simp [List.intercalate]

theorem glue_false (sep : Text) (s : Text) (S : List Text) :
    glue sep false (s :: S) = (if s.isEmpty && !S.isEmpty then sep else []) ++ glue sep true (s :: S) := by
  cases S <;> cases s <;> simp [glue]

theorem trimSuffix_append (sep t : Text) : trimSuffix sep (t ++ sep) = t := by
  unfold trimSuffix
  rw [if_pos (by simp [List.isSuffixOf_iff_suffix])]
  simp

theorem trimSuffix_alnum {alnum : Char → Bool} {sep : Text} (hs : ∀ c ∈ sep, alnum c = false) (t : Text) (c : Char) (hc : alnum c = true) :
    trimSuffix sep (t ++ [c]) = t ++ [c] := by
  unfold trimSuffix
  split
  · rename_i h
    obtain ⟨u, hu⟩ := List.isSuffixOf_iff_suffix.1 h
    rcases List.eq_nil_or_concat sep with e | ⟨s, d, e⟩
    · rw [e]; exact List.take_of_length_le (by simp)
    · rw [e] at hu
      have : d = c := by
        have := congrArg List.getLast? hu
        simpa [← List.append_assoc] using this
      have h2 := hs d (by rw [e]; simp)
      rw [this, hc] at h2; cases h2
  · rfl

/-- No run of more than `n` characters other than letters and digits; `k` precede. -/
def RunOK (alnum : Char → Bool) (n : Nat) : Nat → Text → Prop
  | _, [] => True
  | k, c :: t => if alnum c then RunOK alnum n 0 t else k + 1 ≤ n ∧ RunOK alnum n (k + 1) t

theorem runOK_cons (alnum : Char → Bool) (n k : Nat) (c : Char) (t : Text) :
    RunOK alnum n k (c :: t) = if alnum c then RunOK alnum n 0 t else k + 1 ≤ n ∧ RunOK alnum n (k + 1) t := rfl

theorem runOK_mono {alnum : Char → Bool} {n : Nat} : ∀ (t : Text) {k k' : Nat}, k' ≤ k → RunOK alnum n k t → RunOK alnum n k' t
  | [], _, _, _, _ => trivial
  | c :: t, k, k', hk, h => by
    unfold RunOK at h ⊢
    split
    · rename_i hc; rwa [if_pos hc] at h
    · rename_i hc; rw [if_neg hc] at h
      exact ⟨by omega, runOK_mono t (by omega) h.2⟩

theorem runOK_seps {alnum : Char → Bool} {n : Nat} : ∀ (u t : Text) (k : Nat), (∀ c ∈ u, alnum c = false) → k ≤ n →
    (RunOK alnum n k (u ++ t) ↔ (k + u.length ≤ n ∧ RunOK alnum n (k + u.length) t))
  | [], t, k, _, hk => by simp [hk]
  | c :: u, t, k, h, hk => by
    have hc := h c List.mem_cons_self
    rw [List.cons_append, runOK_cons, if_neg (by simp [hc])]
    by_cases hk' : k + 1 ≤ n
    · rw [runOK_seps u t (k + 1) (fun x hx => h x (List.mem_cons_of_mem _ hx)) hk']
      have : k + 1 + u.length = k + (c :: u).length := by simp; omega
      rw [this]
      constructor
      · intro h; exact h.2
      · intro h; exact ⟨hk', h⟩
    · constructor
      · intro h; exact absurd h.1 hk'
      · intro h; exact absurd h.1 (by simp; omega)

theorem runOK_word {alnum : Char → Bool} {n : Nat} : ∀ (w t : Text) (k : Nat), w ≠ [] → (∀ c ∈ w, alnum c = true) →
    RunOK alnum n 0 t → RunOK alnum n k (w ++ t)
  | [], _, _, h, _, _ => absurd rfl h
  | [c], t, k, _, h, ht => by
    rw [List.singleton_append]; unfold RunOK; rw [if_pos (h c List.mem_cons_self)]; exact ht
  | c :: d :: w, t, k, _, h, ht => by
    rw [List.cons_append]; unfold RunOK; rw [if_pos (h c List.mem_cons_self)]
    exact runOK_word (d :: w) t 0 (by simp) (fun x hx => h x (List.mem_cons_of_mem _ hx)) ht

theorem runOK_intercalate {alnum : Char → Bool} {sep : Text} (hs : ∀ c ∈ sep, alnum c = false) : ∀ (ws : List Text) (k : Nat),
    (∀ w ∈ ws, w ≠ [] ∧ ∀ c ∈ w, alnum c = true) → RunOK alnum sep.length k (sep.intercalate ws)
  | [], k, _ => by simp [List.intercalate, RunOK]
  | [w], k, h => by
    have h := h w List.mem_cons_self
    have := runOK_word (n := sep.length) w [] k h.1 h.2 trivial
    simpa [List.intercalate] using this
  | w :: w' :: ws, k, h => by
    have hw := h w List.mem_cons_self
    have ih := runOK_intercalate hs (w' :: ws) sep.length (fun x hx => h x (List.mem_cons_of_mem _ hx))
    have e : sep.intercalate (w :: w' :: ws) = w ++ (sep ++ sep.intercalate (w' :: ws)) := by
      simp [List.intercalate]
    rw [e]
    refine runOK_word _ _ _ hw.1 hw.2 ?_
    rw [runOK_seps _ _ _ hs (Nat.zero_le _)]
    exact ⟨by omega, by simpa using ih⟩

theorem replaceAllAux_id {alnum : Char → Bool} {old new : Text} {n : Nat} (ho : ∀ c ∈ old, alnum c = false) (hn : n < old.length) :
    ∀ (t : Text) (k : Nat), RunOK alnum n k t → replaceAllAux old new 0 t = t
  | [], _, _ => rfl
  | c :: t, k, h => by
    unfold replaceAllAux
    split
    · rename_i hp
      obtain ⟨u, hu⟩ := List.isPrefixOf_iff_prefix.1 hp
      have h0 := runOK_mono _ (Nat.zero_le k) h
      rw [← hu, runOK_seps _ _ _ ho (Nat.zero_le _)] at h0
      omega
    · unfold RunOK at h
      split at h
      · rw [replaceAllAux_id ho hn t 0 h]
      · rw [replaceAllAux_id ho hn t _ h.2]

theorem replaceAll_id {alnum : Char → Bool} {sep : Text} (hs : ∀ c ∈ sep, alnum c = false) (t : Text) (h : RunOK alnum sep.length 0 t) :
    replaceAll (sep ++ sep) sep t = t := by
  unfold replaceAll
  split
  · rename_i e
    have : sep = [] := by
      cases sep with
      | nil => rfl
      | cons c s => cases e
    subst this
    simp
  · rename_i e
    refine replaceAllAux_id (alnum := alnum) (n := sep.length) ?_ ?_ t 0 h
    · intro c hc; rcases List.mem_append.1 hc with h | h <;> exact hs c h
    · cases sep with
      | nil => exact absurd rfl e
      | cons c s => simp

theorem mem_splitOnP (p : Char → Bool) : ∀ (t : Text) (w : Text), w ∈ t.splitOnP p → ∀ c ∈ w, p c = false
  | [], w, h, c, hc => by simp at h; subst h; cases hc
  | d :: t, w, h, c, hc => by
    rw [List.splitOnP_cons] at h
    obtain ⟨s, S, e⟩ := splitOnP_ne_nil' p t
    split at h
    · rcases List.mem_cons.1 h with h | h
      · subst h; cases hc
      · exact mem_splitOnP p t w h c hc
    · rename_i hd
      rw [e, List.modifyHead_cons] at h
      rcases List.mem_cons.1 h with h | h
      · subst h
        rcases List.mem_cons.1 hc with h | h
        · rw [h]; simpa using hd
        · exact mem_splitOnP p t s (by rw [e]; exact List.mem_cons_self) c h
      · exact mem_splitOnP p t w (by rw [e]; exact List.mem_cons_of_mem _ h) c hc

theorem words_ok (alnum : Char → Bool) (t : Text) : ∀ w ∈ words alnum t, w ≠ [] ∧ ∀ c ∈ w, alnum c = true := by
  intro w hw
  unfold words at hw
  rw [List.mem_filter] at hw
  refine ⟨by simpa using hw.2, fun c hc => ?_⟩
  have := mem_splitOnP _ _ w hw.1 c hc
  simpa using this

theorem words_dropWhile (alnum : Char → Bool) (hb : alnum ' ' = false) : ∀ t : Text,
    words alnum (t.dropWhile (fun c => decide (c = ' '))) = words alnum t
  | [] => rfl
  | c :: t => by
    by_cases h : c = ' '
    · subst h
      rw [List.dropWhile_cons_of_pos (by simp), words_dropWhile alnum hb t]
      unfold words
      rw [List.filter_cons_of_pos (by simp [isSepChar]), List.splitOnP_cons]
      simp [hb]
    · rw [List.dropWhile_cons_of_neg (by simpa using h)]

theorem split_lead (p : Char → Bool) (t : Text) (s : Text) (S : List Text) (e : t.splitOnP p = s :: S) :
    (s.isEmpty && !S.isEmpty) = (match t.head? with | some c => p c | none => false) := by
  cases t with
  | nil => simp at e; rw [e.1, e.2]; rfl
  | cons c t =>
    rw [List.splitOnP_cons] at e
    obtain ⟨s', S', e'⟩ := splitOnP_ne_nil' p t
    by_cases hc : p c = true
    · rw [if_pos hc, e'] at e
      injection e with e1 e2
      simp [← e1, ← e2, hc]
    · rw [if_neg hc, e', List.modifyHead_cons] at e
      injection e with e1 e2
      simp [← e1, ← e2, hc]

theorem intercalate_last {alnum : Char → Bool} {sep : Text} : ∀ (ws : List Text), ws ≠ [] → (∀ w ∈ ws, w ≠ [] ∧ ∀ c ∈ w, alnum c = true) →
    ∃ u c, alnum c = true ∧ sep.intercalate ws = u ++ [c]
  | [], h, _ => absurd rfl h
  | [w], _, h => by
    have hw := h w List.mem_cons_self
    rcases List.eq_nil_or_concat w with e | ⟨u, c, e⟩
    · exact absurd e hw.1
    · exact ⟨u, c, hw.2 c (by rw [e]; simp), by rw [e]; simp [List.intercalate]⟩
  | w :: w' :: ws, _, h => by
    obtain ⟨u, c, hc, e⟩ := intercalate_last (sep := sep) (w' :: ws) (by simp) (fun x hx => h x (List.mem_cons_of_mem _ hx))
    have e2 : sep.intercalate (w :: w' :: ws) = w ++ (sep ++ sep.intercalate (w' :: ws)) := by
      simp [List.intercalate]
    exact ⟨w ++ (sep ++ u), c, hc, by rw [e2, e]; simp⟩

theorem trimmed (alnum : Char → Bool) (sep : Text) (hs : ∀ c ∈ sep, alnum c = false) (hb : alnum ' ' = false) (t : Text) :
    trimSuffix sep (replElems alnum sep true [.str t]) = body alnum sep t := by
  have hr : replElems alnum sep true [.str t] = replaceNonAlnum alnum sep false (t.dropWhile (fun c => decide (c = ' '))) := by
    simp [replElems, replElem]
  rw [hr, replace_filter, replace_glue _ _ _ _ (fun c hc => (List.mem_filter.1 hc).2)]
  obtain ⟨s, S, e⟩ := splitOnP_ne_nil' (fun c => !alnum c) ((t.dropWhile (fun c => decide (c = ' '))).filter (fun c => alnum c || isSepChar c))
  have hw : (s :: S).filter (fun w => !w.isEmpty) = words alnum t := by
    rw [← words_dropWhile alnum hb t, ← e]; rfl
  have hl := split_lead _ _ s S e
  have hlead : (s.isEmpty && !S.isEmpty) = startsWithSep alnum t := hl
  rw [e, glue_false, hlead]
  obtain ⟨tr, htr, eg⟩ := glue_true sep (s :: S) (by simp)
  rw [eg, hw]
  rw [hw] at htr
  unfold body
  by_cases hwe : words alnum t = []
  · have : tr = [] := by rcases htr with h | h; exact h; exact absurd hwe h.2
    rw [if_pos hwe, this, hwe]
    have hi : sep.intercalate ([] : List Text) = [] := by simp [List.intercalate]
    rw [hi]
    cases startsWithSep alnum t
    · simp [trimSuffix]
    · simpa using trimSuffix_append sep []
  · rw [if_neg hwe]
    rcases htr with h | h
    · rw [h, List.append_nil]
      obtain ⟨u, c, hc, e⟩ := intercalate_last (sep := sep) _ hwe (words_ok alnum t)
      rw [e, ← List.append_assoc]
      exact trimSuffix_alnum hs _ c hc
    · rw [h.1, ← List.append_assoc]
      exact trimSuffix_append _ _

theorem body_run (alnum : Char → Bool) (sep : Text) (hs : ∀ c ∈ sep, alnum c = false) (t : Text) : RunOK alnum sep.length 0 (body alnum sep t) := by
  unfold body
  split
  · trivial
  · have h := runOK_intercalate hs (words alnum t) sep.length (words_ok alnum t)
    cases startsWithSep alnum t
    · simpa using runOK_mono _ (Nat.zero_le _) h
    · rw [if_pos rfl, runOK_seps _ _ _ hs (Nat.zero_le _)]
      exact ⟨by omega, by simpa using h⟩

theorem body_trim (alnum : Char → Bool) (sep : Text) (hs : ∀ c ∈ sep, alnum c = false) (t : Text) : trimSuffix sep (body alnum sep t) = body alnum sep t := by
  unfold body
  split
  · simp [trimSuffix]
  · rename_i hwe
    obtain ⟨u, c, hc, e⟩ := intercalate_last (sep := sep) _ hwe (words_ok alnum t)
    rw [e, ← List.append_assoc]
    exact trimSuffix_alnum hs _ c hc

/-- The identifier of a plain text title is the prefix followed by the words of the title joined by the
separator; a title that starts with a hyphen or dot keeps a leading separator; a prefix that is already there is
not repeated. -/
theorem plain_title (alnum : Char → Bool) (pre sep : Text) (hs : ∀ c ∈ sep, alnum c = false) (hb : alnum ' ' = false) (t : Text) :
    titleID alnum pre sep [.str t] = if pre <+: body alnum sep t then body alnum sep t else pre ++ body alnum sep t := by
  unfold titleID dedupSep
  dsimp only
  rw [trimmed alnum sep hs hb t, replaceAll_id hs _ (body_run alnum sep hs t), body_trim alnum sep hs t]
  by_cases h : pre <+: body alnum sep t
  · rw [if_pos h, if_pos (List.isPrefixOf_iff_prefix.2 h)]
  · rw [if_neg h, if_neg (fun h' => h (List.isPrefixOf_iff_prefix.1 h'))]

/-! ### Non-vacuity and findings -/

def A : Char → Bool := Char.isAlphanum

example : String.ofList (titleID A "_".toList "_".toList [.str "What's new in v1.2 -- a summary!".toList]) = "_Whats_new_in_v1_2_a_summary" := by decide
example : words A "What's new in v1.2 -- a summary!".toList = ["Whats".toList, "new".toList, "in".toList, "v1".toList, "2".toList, "a".toList, "summary".toList] := by decide
example : startsWithSep A "What's new".toList = false := by decide

/-- Finding: the body of an identifier may start with a separator (`== .NET core` with `:idprefix: id`). -/
theorem finding_leading_separator :
    titleID A "id".toList "_".toList [.str ".NET core".toList] = "id_NET_core".toList := by decide

/-- Finding (non_alphanumerics_replacement.go:15 and 59-61): separators at the end of a title with several quoted texts
without letters are halved and trimmed once, not removed (`== a *!* *!* *!*`). -/
theorem finding_trailing_separators :
    titleID A "_".toList "_".toList [.str "a ".toList, .quoted [.str "!".toList], .str " ".toList, .quoted [.str "!".toList], .str " ".toList, .quoted [.str "!".toList]] =
      "_a__".toList := by decide

end Verif.C15
