import Verif.Spec.Clean
import Verif.Props.Escape
import Verif.Props.IdText
/-!
What the functions on strings used by the renderer do to well-formed fragments.
-/
namespace Verif.Html

/-- Characters which are no part of the syntax of tags. -/
def Odd (c : Char) : Prop := ¬ NameChar c ∧ c ≠ '<' ∧ c ≠ '>' ∧ c ≠ '/' ∧ c ≠ '=' ∧ c ≠ '"'

instance : DecidablePred Odd := fun c => by unfold Odd; infer_instance

theorem Odd.letter {c} (h : Odd c) : ¬ Letter c := fun hl => h.1 (Or.inl hl)

/-- The state after white space. -/
def rest (R : Rules) : St → Option St
  | ⟨.text, stk⟩ => some ⟨.text, stk⟩
  | ⟨.name n, stk⟩ => some ⟨.blank n, stk⟩
  | ⟨.blank n, stk⟩ => some ⟨.blank n, stk⟩
  | ⟨.aft n, stk⟩ => some ⟨.blank n, stk⟩
  | ⟨.attr n, stk⟩ => if R.xml = true then none else some ⟨.blank n, stk⟩
  | ⟨.val n, stk⟩ => some ⟨.val n, stk⟩
  | _ => none

theorem rest_rest {R s s'} (h : rest R s = some s') : rest R s' = some s' := by
  obtain ⟨m, stk⟩ := s
  cases m <;> simp only [rest] at h
  case attr n =>
    split at h
    · cases h
    · cases h; rfl
  all_goals first | (cases h; rfl) | cases h

theorem tagEnd_odd {R n stk c s'} (ho : Odd c) (h : tagEnd R n stk c = some s') : s' = ⟨.blank n, stk⟩ ∧ Blank R c := by
  unfold tagEnd at h
  rw [if_neg ho.2.2.1, if_neg ho.2.2.2.1] at h
  split at h
  · rename_i hb; cases h; exact ⟨rfl, hb⟩
  · cases h

/-- What a character that is no part of the syntax does. -/
theorem step_odd {R s c s'} (ho : Odd c) (h : step R s c = some s') :
    rest R s = some s' ∧ (Blank R c ∨ (s' = s ∧ (s.mode = .text ∨ ∃ n, s.mode = .val n))) := by
  obtain ⟨m, stk⟩ := s
  have hl := ho.letter
  obtain ⟨h1, h2, h3, h4, h5, h6⟩ := id ho
  cases m with
  | text =>
    unfold step at h; dsimp only at h
    rw [if_neg h2, if_neg h3] at h; cases h
    exact ⟨rfl, Or.inr ⟨rfl, Or.inl rfl⟩⟩
  | lt =>
    unfold step at h; dsimp only at h
    rw [if_neg h4, if_neg hl] at h; cases h
  | name n =>
    unfold step at h; dsimp only at h
    rw [if_neg h1] at h
    obtain ⟨e, hb⟩ := tagEnd_odd ho h
    subst e; exact ⟨rfl, Or.inl hb⟩
  | blank n =>
    unfold step at h; dsimp only at h
    rw [if_neg hl] at h
    obtain ⟨e, hb⟩ := tagEnd_odd ho h
    subst e; exact ⟨rfl, Or.inl hb⟩
  | attr n =>
    unfold step at h; dsimp only at h
    rw [if_neg h1, if_neg h5] at h
    split at h
    · cases h
    · rename_i hx
      obtain ⟨e, hb⟩ := tagEnd_odd ho h
      subst e
      exact ⟨by simp only [rest, if_neg hx], Or.inl hb⟩
  | eq n =>
    unfold step at h; dsimp only at h
    rw [if_neg h6] at h; cases h
  | val n =>
    unfold step at h; dsimp only at h
    rw [if_neg h6] at h
    split at h
    · cases h; exact ⟨rfl, Or.inr ⟨rfl, Or.inr ⟨n, rfl⟩⟩⟩
    · cases h
  | aft n =>
    obtain ⟨e, hb⟩ := tagEnd_odd ho h
    subst e; exact ⟨rfl, Or.inl hb⟩
  | slash =>
    unfold step at h; dsimp only at h
    rw [if_neg h3] at h; cases h
  | clo0 =>
    unfold step at h; dsimp only at h
    rw [if_neg hl] at h; cases h
  | clo n =>
    unfold step at h; dsimp only at h
    rw [if_neg h1] at h
    first | (cases h; done) | (rw [if_neg h3] at h; cases h)

theorem odd_nl : Odd '\n' := by decide
theorem odd_space : Odd ' ' := by decide
theorem not_letter_space : ¬ Letter ' ' := by decide

theorem tagEnd_blank {R n stk c} (hb : Blank R c) : tagEnd R n stk c = some ⟨.blank n, stk⟩ := step_blank_of hb

/-- White space other than a line break in a tag on one line. -/
theorem step_blank {R s c s'} (ho : Odd c) (hb : Blank R c) (h : rest R s = some s') : step R s c = some s' := by
  obtain ⟨m, stk⟩ := s
  have hl := ho.letter
  obtain ⟨h1, h2, h3, h4, h5, h6⟩ := id ho
  cases m with
  | text => cases h; exact step_text_plain h2 h3
  | name n => cases h; unfold step; dsimp only; rw [if_neg h1]; exact tagEnd_blank hb
  | blank n => cases h; unfold step; dsimp only; rw [if_neg hl]; exact tagEnd_blank hb
  | aft n => cases h; unfold step; exact tagEnd_blank hb
  | attr n =>
    simp only [rest] at h
    split at h
    · cases h
    · rename_i hx
      cases h; unfold step; dsimp only; rw [if_neg h1, if_neg h5, if_neg hx]; exact tagEnd_blank hb
  | val n =>
    cases h; unfold step; dsimp only
    have hv : ValueChar R c := by
      refine ⟨h6, h2, fun ho => ?_⟩
      rcases hb with e | e | e
      · subst e; decide
      · subst e; decide
      · rw [ho] at e; exact (Bool.noConfusion e.2)
    rw [if_neg h6, if_pos hv]
  | lt => cases h
  | eq n => cases h
  | slash => cases h
  | clo0 => cases h
  | clo n => cases h

theorem nl_blank {R : Rules} (h : R.oneLine = false) : Blank R '\n' := Or.inr (Or.inr ⟨rfl, h⟩)

/-- A line break may be replaced by a space. -/
theorem step_nl_space {R s s'} (h : step R s '\n' = some s') : step R s ' ' = some s' :=
  step_blank odd_space (Or.inl rfl) (step_odd odd_nl h).1

/-- On one line, a line break is in the text. -/
theorem step_nl_text {R : Rules} {s s'} (ho : R.oneLine = true) (h : step R s '\n' = some s') : s.mode = .text ∧ s' = s := by
  rcases (step_odd odd_nl h).2 with hb | ⟨e, hm | ⟨n, hm⟩⟩
  · rcases hb with e | e | ⟨_, e⟩
    · exact absurd e (by decide)
    · exact absurd e (by decide)
    · rw [ho] at e; cases e
  · exact ⟨hm, e⟩
  · obtain ⟨m, stk⟩ := s
    cases hm
    unfold step at h; dsimp only at h
    rw [if_neg (by decide)] at h
    split at h
    · rename_i hv; exact absurd rfl (hv.2.2 ho)
    · cases h

/-- White space before a line break may be removed. -/
theorem step_before_nl {R s c s1 s2} (ho : Odd c) (h1 : step R s c = some s1) (h2 : step R s1 '\n' = some s2) :
    step R s '\n' = some s2 := by
  cases hR : R.oneLine with
  | false =>
    have e1 := (step_odd ho h1).1
    have e2 := (step_odd odd_nl h2).1
    rw [rest_rest e1] at e2
    cases e2
    exact step_blank odd_nl (nl_blank hR) e1
  | true =>
    obtain ⟨hm, e⟩ := step_nl_text hR h2
    subst e
    obtain ⟨hm', _⟩ := step_to_text h1 hm ho.2.2.1
    obtain ⟨m, stk⟩ := s
    cases hm'
    rw [step_text_plain ho.2.1 ho.2.2.1] at h1
    cases h1
    exact h2

/-- White space after a line break, or at the beginning, may be removed. -/
theorem step_after_nl {R s c s'} (ho : Odd c) (hs : rest R s = some s) (h : step R s c = some s') : s' = s := by
  have := (step_odd ho h).1
  rw [hs] at this
  exact (Option.some.inj this).symm

theorem scan_cons {R s c t} : scan R s (c :: t) = (step R s c).bind (fun s' => scan R s' t) := rfl

theorem scan_cons_some {R s c t s'} (h : scan R s (c :: t) = some s') : ∃ s1, step R s c = some s1 ∧ scan R s1 t = some s' := by
  rw [scan_cons] at h
  cases hs : step R s c with
  | none => rw [hs] at h; cases h
  | some s1 => rw [hs] at h; exact ⟨s1, rfl, h⟩

theorem scan_append_some {R s t u s'} (h : scan R s (t ++ u) = some s') :
    ∃ s1, scan R s t = some s1 ∧ scan R s1 u = some s' := by
  rw [scan_append] at h
  cases hs : scan R s t with
  | none => rw [hs] at h; cases h
  | some s1 => rw [hs] at h; exact ⟨s1, rfl, h⟩

theorem scan_append_of {R s t u s1 s'} (h1 : scan R s t = some s1) (h2 : scan R s1 u = some s') :
    scan R s (t ++ u) = some s' := by rw [scan_append, h1]; exact h2

theorem scan_after_nl {R s} (hs : rest R s = some s) : ∀ {b : Text} {s'}, (∀ c ∈ b, Odd c) → scan R s b = some s' → s' = s
  | [], s', _, h => by cases h; rfl
  | c :: b, s', hb, h => by
    obtain ⟨s1, h1, h2⟩ := scan_cons_some h
    have e := step_after_nl (hb c (List.mem_cons_self ..)) hs h1
    subst e
    exact scan_after_nl hs (fun x hx => hb x (List.mem_cons_of_mem _ hx)) h2

theorem scan_before_nl {R} : ∀ {b : Text} {s s' : St}, (∀ c ∈ b, Odd c) → scan R s (b ++ ['\n']) = some s' →
    step R s '\n' = some s'
  | [], s, s', _, h => by
    obtain ⟨s1, h1, h2⟩ := scan_cons_some h
    cases h2; exact h1
  | c :: b, s, s', hb, h => by
    obtain ⟨s1, h1, h2⟩ := scan_cons_some h
    exact step_before_nl (hb c (List.mem_cons_self ..)) h1
      (scan_before_nl (fun x hx => hb x (List.mem_cons_of_mem _ hx)) h2)

/-- Two lists, element by element. -/
inductive Each2 {α β : Type} (P : α → β → Prop) : List α → List β → Prop
  | nil : Each2 P [] []
  | cons {x y l m} : P x y → Each2 P l m → Each2 P (x :: l) (y :: m)

/-- A line from which white space has been removed at both ends. -/
def Shrunk (l l' : Text) : Prop := ∃ a b, l = a ++ l' ++ b ∧ (∀ c ∈ a, Odd c) ∧ (∀ c ∈ b, Odd c)

theorem Odd.plain {b : Text} (h : ∀ c ∈ b, Odd c) : Plain b := fun c hc => ⟨(h c hc).2.1, (h c hc).2.2.1⟩

theorem scan_shrunk_lines {R} {ls ls' : List Text} (h : Each2 Shrunk ls ls') : ∀ {s s' : St}, rest R s = some s →
    s'.mode = .text → scan R s (Rend.joinWith "\n".toList ls) = some s' →
    scan R s (Rend.joinWith "\n".toList ls') = some s' := by
  induction h with
  | nil => intro s s' _ _ h; exact h
  | @cons l l' ls ls' hl hrest ih =>
    intro s s' hs hm h
    obtain ⟨a, b, rfl, ha, hb⟩ := hl
    cases hrest with
    | nil =>
      simp only [Rend.joinWith] at h ⊢
      obtain ⟨s2, h12, h3⟩ := scan_append_some h
      obtain ⟨s1, h1, h2⟩ := scan_append_some h12
      have e := scan_after_nl hs ha h1
      subst e
      have e := scan_plain_back (Odd.plain hb) h3 hm
      subst e
      exact h2
    | @cons m m' ms ms' hm1 hm2 =>
      simp only [Rend.joinWith] at h ⊢
      obtain ⟨s4, h4, h5⟩ := scan_append_some h
      rw [List.append_assoc] at h4
      obtain ⟨s2, h12, h3⟩ := scan_append_some h4
      obtain ⟨s1, h1, h2⟩ := scan_append_some h12
      have e := scan_after_nl hs ha h1
      subst e
      have h3' := scan_before_nl hb h3
      have hr := rest_rest (step_odd odd_nl h3').1
      refine scan_append_of (scan_append_of h2 (?_ : scan R s2 "\n".toList = some s4)) (ih hr hm h5)
      show (step R s2 '\n').bind _ = _
      rw [h3']; rfl

theorem Markup.shrunk {R} {ls ls' : List Text} (h : Each2 Shrunk ls ls')
    (hm : Markup R (Rend.joinWith "\n".toList ls)) : Markup R (Rend.joinWith "\n".toList ls') :=
  markup_iff.mpr (scan_shrunk_lines h rfl rfl (markup_iff.mp hm))

end Verif.Html

namespace Verif.Rend
open Verif.Html

theorem goSpace_ascii {c : Char} (h : goSpace c = true) : Odd c := by
  have key : ∀ d : Char, d.toNat = c.toNat → d = c := fun d e => Char.toNat_inj.mp e
  simp only [goSpace, Bool.or_eq_true, List.contains_iff_mem, Bool.and_eq_true, decide_eq_true_eq, List.mem_cons,
    List.not_mem_nil, or_false] at h
  have hne : ∀ d : Char, 32 < d.toNat → d.toNat < 127 → c ≠ d := by
    rintro d h1 h2 rfl; omega
  have hge : ∀ lo hi : Char, lo.toNat > 32 → hi.toNat < 127 → ¬ (lo ≤ c ∧ c ≤ hi) := by
    rintro lo hi h1 h2 ⟨h3, h4⟩
    have h3 : lo.toNat ≤ c.toNat := h3
    have h4 : c.toNat ≤ hi.toNat := h4
    omega
  refine ⟨?_, hne _ (by decide) (by decide), hne _ (by decide) (by decide), hne _ (by decide) (by decide),
    hne _ (by decide) (by decide), hne _ (by decide) (by decide)⟩
  rintro ((h1 | h1) | h1 | h1 | h1 | h1 | h1)
  · exact hge _ _ (by decide) (by decide) h1
  · exact hge _ _ (by decide) (by decide) h1
  · exact hge _ _ (by decide) (by decide) h1
  all_goals exact hne _ (by decide) (by decide) h1

theorem dropWhile_split (p : Char → Bool) : ∀ t : Text, ∃ a, t = a ++ t.dropWhile p ∧ ∀ c ∈ a, p c = true
  | [] => ⟨[], rfl, by simp⟩
  | c :: t => by
    rw [List.dropWhile_cons]
    split
    · rename_i h
      obtain ⟨a, e, ha⟩ := dropWhile_split p t
      refine ⟨c :: a, by rw [List.cons_append, ← e], fun x hx => ?_⟩
      rcases List.mem_cons.mp hx with rfl | hx
      · exact h
      · exact ha x hx
    · exact ⟨[], rfl, by simp⟩

theorem trimRight_split (p : Char → Bool) (t : Text) : ∃ b, t = trimRight p t ++ b ∧ ∀ c ∈ b, p c = true := by
  obtain ⟨a, e, ha⟩ := dropWhile_split p t.reverse
  refine ⟨a.reverse, ?_, fun c hc => ha c (List.mem_reverse.mp hc)⟩
  unfold trimRight
  rw [← List.reverse_append, ← e, List.reverse_reverse]

theorem trim_split (p : Char → Bool) (t : Text) : ∃ a b, t = a ++ trim p t ++ b ∧ (∀ c ∈ a, p c = true) ∧ ∀ c ∈ b, p c = true := by
  obtain ⟨a, e, ha⟩ := dropWhile_split p t
  obtain ⟨b, e', hb⟩ := trimRight_split p (t.dropWhile p)
  refine ⟨a, b, ?_, ha, hb⟩
  unfold trim
  rw [List.append_assoc, ← e', ← e]

/-- A character that is neither `<` nor `>`. -/
def NoTag (p : Char → Bool) : Prop := ∀ c, p c = true → c ≠ '<' ∧ c ≠ '>'

theorem noTag_space : NoTag goSpace := fun _ h => ⟨(goSpace_ascii h).2.1, (goSpace_ascii h).2.2.1⟩
theorem noTag_eq {d : Char} (h : d ≠ '<' ∧ d ≠ '>') : NoTag (· == d) := fun c hc => by
  have : c = d := by simpa using hc
  subst this; exact h

theorem markup_trimRight {R p t} (hp : NoTag p) (h : Markup R t) : Markup R (trimRight p t) := by
  obtain ⟨b, e, hb⟩ := trimRight_split p t
  rw [e] at h
  exact h.drop_end fun c hc => hp c (hb c hc)

theorem markup_trim {R p t} (hp : NoTag p) (h : Markup R t) : Markup R (trim p t) := by
  obtain ⟨a, b, e, ha, hb⟩ := trim_split p t
  rw [e] at h
  exact (h.drop_end fun c hc => hp c (hb c hc)).drop_start fun c hc => hp c (ha c hc)

theorem splitNL_ne : ∀ t : Text, splitNL t ≠ []
  | [] => by simp [splitNL]
  | c :: t => by
    unfold splitNL
    split
    · simp
    · split <;> simp

theorem join_splitNL : ∀ t : Text, joinWith "\n".toList (splitNL t) = t
  | [] => rfl
  | c :: t => by
    unfold splitNL
    have ih := join_splitNL t
    split
    · rename_i e
      subst e
      cases hs : splitNL t with
      | nil => exact absurd hs (splitNL_ne t)
      | cons l ls => rw [hs] at ih; simp only [joinWith, ih]; rfl
    · cases hs : splitNL t with
      | nil => exact absurd hs (splitNL_ne t)
      | cons l ls =>
        rw [hs] at ih
        cases ls with
        | nil => simp only [joinWith] at ih ⊢; rw [ih]
        | cons m ms => simp only [joinWith, List.cons_append] at ih ⊢; rw [ih]

theorem forall₂_map {α β : Type} {P : α → β → Prop} {f : α → β} : ∀ {l : List α}, (∀ x ∈ l, P x (f x)) → Each2 P l (l.map f)
  | [], _ => .nil
  | x :: l, h => .cons (h x (List.mem_cons_self ..)) (forall₂_map fun y hy => h y (List.mem_cons_of_mem _ hy))

theorem markup_trimSpaces {R t} (h : Markup R t) : Markup R (trimSpaces t) := by
  rw [← join_splitNL t] at h
  refine Markup.shrunk (forall₂_map fun l _ => ?_) h
  obtain ⟨a, b, e, ha, hb⟩ := trim_split goSpace l
  exact ⟨a, b, e, fun c hc => goSpace_ascii (ha c hc), fun c hc => goSpace_ascii (hb c hc)⟩

theorem foldl_min_le : ∀ (l : List Nat) (n : Nat), l.foldl Nat.min n ≤ n ∧ ∀ x ∈ l, l.foldl Nat.min n ≤ x
  | [], n => ⟨Nat.le_refl _, by simp⟩
  | m :: l, n => by
    obtain ⟨h1, h2⟩ := foldl_min_le l (Nat.min n m)
    refine ⟨Nat.le_trans h1 (Nat.min_le_left ..), fun x hx => ?_⟩
    rcases List.mem_cons.mp hx with rfl | hx
    · exact Nat.le_trans h1 (Nat.min_le_right ..)
    · exact h2 x hx

theorem markup_adjustHeadingSpaces {R t} (h : Markup R t) : Markup R (adjustHeadingSpaces t) := by
  have hj := join_splitNL t
  unfold adjustHeadingSpaces
  split
  · rename_i l e
    rw [e] at hj
    have hj : l = t := hj
    subst hj
    obtain ⟨a, e, ha⟩ := dropWhile_split (· == ' ') l
    rw [e] at h
    exact h.drop_start fun c hc => noTag_eq (by decide) c (ha c hc)
  · rw [← hj] at h
    refine Markup.shrunk (forall₂_map fun l hl => ?_) h
    have hn := (foldl_min_le ((splitNL t).map heading) (((splitNL t).map heading).headD 0)).2 (heading l)
      (List.mem_map_of_mem hl)
    refine ⟨l.take _, [], by rw [List.append_nil, List.take_append_drop], ?_, by simp⟩
    intro c hc
    have : c ∈ l.takeWhile (· == ' ') := by
      have hp : l.takeWhile (· == ' ') = l.take (heading l) := by
        have := List.takeWhile_prefix (p := (· == ' ')) (l := l)
        exact List.prefix_iff_eq_take.mp this
      rw [hp]
      exact (List.take_subset_take_left l hn) hc
    have hc : c = ' ' := by
      have := List.all_eq_true.mp (List.all_takeWhile (p := (· == ' ')) (l := l)) c this
      simpa using this
    subst hc; exact odd_space

/-! ### Replacements -/

theorem replaceAux_one (old : Char) (new : Text) : ∀ t : Text,
    replaceAllAux [old] new 0 t = t.flatMap (fun c => if c = old then new else [c])
  | [] => rfl
  | c :: t => by
    unfold replaceAllAux
    rw [List.flatMap_cons, ← replaceAux_one old new t]
    by_cases h : c = old
    · subst h
      rw [if_pos rfl, if_pos (by simp [List.isPrefixOf])]; rfl
    · rw [if_neg h, if_neg (by simp [List.isPrefixOf, Ne.symm h])]; rfl

theorem replace_one (old : Char) (new t : Text) :
    replaceAll [old] new t = t.flatMap (fun c => if c = old then new else [c]) := by
  unfold replaceAll
  rw [if_neg (by simp), replaceAux_one]

/-- A replacement of characters that keeps the effect of each. -/
theorem scan_flatMap {R} {f : Char → Text} (hf : ∀ c s s', step R s c = some s' → scan R s (f c) = some s') :
    ∀ {t : Text} {s s'}, scan R s t = some s' → scan R s (t.flatMap f) = some s'
  | [], s, s', h => h
  | c :: t, s, s', h => by
    obtain ⟨s1, h1, h2⟩ := scan_cons_some h
    rw [List.flatMap_cons]
    exact scan_append_of (hf c s s1 h1) (scan_flatMap hf h2)

theorem scan_one {R s c s'} (h : step R s c = some s') : scan R s [c] = some s' := by
  rw [scan_cons, h]; rfl

theorem markup_nl_space {R t} (h : Markup R t) : Markup R (replaceAll "\n".toList " ".toList t) := by
  show Markup R (replaceAll ['\n'] [' '] t)
  rw [replace_one]
  refine markup_iff.mpr (scan_flatMap (fun c s s' hs => ?_) (markup_iff.mp h))
  split
  · rename_i e; subst e; exact scan_one (step_nl_space hs)
  · exact scan_one hs

theorem markup_hardbreaks {R : Rules} {br t} (ho : R.oneLine = true) (hb : Markup R br) (h : Markup R t) :
    Markup R (replaceAll "\n".toList (br ++ "\n".toList) t) := by
  show Markup R (replaceAll ['\n'] (br ++ ['\n']) t)
  rw [replace_one]
  refine markup_iff.mpr (scan_flatMap (fun c s s' hs => ?_) (markup_iff.mp h))
  split
  · rename_i e
    subst e
    obtain ⟨hm, e⟩ := step_nl_text ho hs
    obtain ⟨m, stk⟩ := s
    cases hm
    exact scan_append_of (hb.scan stk) (scan_one hs)
  · exact scan_one hs

theorem entify_flatMap : ∀ t : Text, Escape.asciiEntify t =
    t.flatMap (fun c => if Escape.plainASCII c then [c] else "&#".toList ++ itoa c.toNat ++ ";".toList)
  | [] => rfl
  | c :: t => by rw [List.flatMap_cons, ← entify_flatMap t]; rfl

theorem digit_chars {c : Char} (h : c.isDigit = true) : c ≠ '<' ∧ c ≠ '>' ∧ c ≠ '"' ∧ c ≠ '\n' ∧ c ≠ '%' := by
  refine ⟨?_, ?_, ?_, ?_, ?_⟩ <;> (rintro rfl; exact absurd h (by decide))

theorem entity_chars (n : Nat) : ∀ c ∈ "&#".toList ++ itoa n ++ ";".toList, c ≠ '<' ∧ c ≠ '>' ∧ c ≠ '"' ∧ c ≠ '\n' := by
  intro c hc
  rcases List.mem_append.mp hc with hc | hc
  · rcases List.mem_append.mp hc with hc | hc
    · have : ∀ c ∈ "&#".toList, c ≠ '<' ∧ c ≠ '>' ∧ c ≠ '"' ∧ c ≠ '\n' := by decide
      exact this c hc
    · have := digit_chars (C28.itoa_digit n c hc)
      exact ⟨this.1, this.2.1, this.2.2.1, this.2.2.2.1⟩
  · have : ∀ c ∈ ";".toList, c ≠ '<' ∧ c ≠ '>' ∧ c ≠ '"' ∧ c ≠ '\n' := by decide
    exact this c hc

theorem odd_of_not_ascii {c : Char} (h : Escape.plainASCII c = false) : Odd c := by
  have hr : ∀ lo hi : Char, 32 ≤ lo.toNat → hi.toNat ≤ 126 → ¬ (lo ≤ c ∧ c ≤ hi) := by
    rintro lo hi h1 h2 ⟨h3, h4⟩
    have h3 : lo.toNat ≤ c.toNat := h3
    have h4 : c.toNat ≤ hi.toNat := h4
    have : Escape.plainASCII c = true := by
      simp only [Escape.plainASCII, Bool.and_eq_true, Bool.or_eq_true, decide_eq_true_eq]
      omega
    rw [this] at h; cases h
  have hne : ∀ d : Char, Escape.plainASCII d = true → c ≠ d := by
    rintro d hd rfl; rw [hd] at h; cases h
  refine ⟨?_, hne _ (by decide), hne _ (by decide), hne _ (by decide), hne _ (by decide), hne _ (by decide)⟩
  rintro ((h1 | h1) | h1 | h1 | h1 | h1 | h1)
  · exact hr _ _ (by decide) (by decide) h1
  · exact hr _ _ (by decide) (by decide) h1
  · exact hr _ _ (by decide) (by decide) h1
  all_goals exact hne _ (by decide) h1

/-- Replacing the characters that are not ASCII keeps the effect of a text. -/
theorem scan_entify {R t s s'} (h : scan R s t = some s') : scan R s (Escape.asciiEntify t) = some s' := by
  rw [entify_flatMap]
  refine scan_flatMap (fun c s s' hs => ?_) h
  split
  · exact scan_one hs
  · rename_i hp
    have hp : Escape.plainASCII c = false := by simpa using hp
    have hc := entity_chars c.toNat
    have hnb : ¬ Blank R c := by
      rintro (e | e | ⟨e, _⟩) <;> (subst e; exact absurd hp (by decide))
    rcases (step_odd (odd_of_not_ascii hp) hs).2 with hb | ⟨e, hm | ⟨n, hm⟩⟩
    · exact absurd hb hnb
    · subst e
      obtain ⟨m, stk⟩ := s'
      cases hm
      exact Plain.scan fun x hx => ⟨(hc x hx).1, (hc x hx).2.1⟩
    · subst e
      obtain ⟨m, stk⟩ := s'
      cases hm
      exact scan_val fun x hx => ⟨(hc x hx).2.2.1, (hc x hx).1, fun _ => (hc x hx).2.2.2⟩

theorem scan_renderString {R b t s s'} (h : scan R s t = some s') : scan R s (Escape.renderString b t) = some s' := by
  unfold Escape.renderString
  split
  · exact h
  · exact scan_entify h

theorem mem_renderString {b : Bool} {t : Text} {c : Char} (h : c ∈ Escape.renderString b t) :
    c ∈ t ∨ (c ≠ '<' ∧ c ≠ '>' ∧ c ≠ '"' ∧ c ≠ '\n') := by
  unfold Escape.renderString at h
  split at h
  · exact Or.inl h
  · rw [entify_flatMap, List.mem_flatMap] at h
    obtain ⟨d, hd, hc⟩ := h
    split at hc
    · rw [List.mem_singleton] at hc; subst hc; exact Or.inl hd
    · exact Or.inr (entity_chars _ c hc)

/-! ### Safe texts -/

theorem Safe.append {R t u} (h : Safe R t) (h' : Safe R u) : Safe R (t ++ u) :=
  ⟨fun c hc => (List.mem_append.mp hc).elim (h.1 c) (h'.1 c), fun c hc => (List.mem_append.mp hc).elim (h.2 c) (h'.2 c)⟩

theorem Value.append {R t u} (h : Value R t) (h' : Value R u) : Value R (t ++ u) :=
  fun c hc => (List.mem_append.mp hc).elim (h c) (h' c)

theorem Plain.append {t u} (h : Plain t) (h' : Plain u) : Plain (t ++ u) :=
  fun c hc => (List.mem_append.mp hc).elim (h c) (h' c)

theorem Safe.nil {R} : Safe R [] := ⟨fun _ h => (nomatch h), fun _ h => (nomatch h)⟩

theorem Safe.sub {R t u} (h : Safe R t) (hs : ∀ c ∈ u, c ∈ t) : Safe R u := ⟨fun c hc => h.1 c (hs c hc), fun c hc => h.2 c (hs c hc)⟩

/-- A text without any of the characters that matter. -/
theorem safe_of {R : Rules} {t : Text} (h : ∀ c ∈ t, c ≠ '<' ∧ c ≠ '>' ∧ c ≠ '"' ∧ c ≠ '\n') : Safe R t :=
  ⟨fun c hc => ⟨(h c hc).1, (h c hc).2.1⟩, fun c hc => ⟨(h c hc).2.2.1, (h c hc).1, fun _ => (h c hc).2.2.2⟩⟩

theorem safe_join {R} {sep : Text} (hs : Value R sep) : ∀ {l : List Text}, (∀ t ∈ l, Value R t) → Value R (joinWith sep l)
  | [], _ => fun _ h => nomatch h
  | [t], h => h t (List.mem_cons_self ..)
  | t :: u :: l, h => by
    unfold joinWith
    exact Value.append (Value.append (h t (List.mem_cons_self ..)) hs)
      (safe_join hs fun x hx => h x (List.mem_cons_of_mem _ hx))

theorem itoa_safe {R} (n : Nat) : Safe R (itoa n) := safe_of fun c hc => by
  have := digit_chars (C28.itoa_digit n c hc)
  exact ⟨this.1, this.2.1, this.2.2.1, this.2.2.2.1⟩

theorem int_safe {R} (n : Int) : Safe R (toString n).toList := by
  refine safe_of fun c hc => ?_
  have hd : ∀ m : Nat, ∀ c ∈ (toString m).toList, c ≠ '<' ∧ c ≠ '>' ∧ c ≠ '"' ∧ c ≠ '\n' := by
    intro m c hc
    have hc : c ∈ itoa m := by
      simpa [itoa, Nat.toList_repr] using hc
    have := digit_chars (C28.itoa_digit m c hc)
    exact ⟨this.1, this.2.1, this.2.2.1, this.2.2.2.1⟩
  cases n with
  | ofNat m => exact hd m c hc
  | negSucc m =>
    have hc : c ∈ ("-" ++ toString (m + 1)).toList := hc
    rw [String.toList_append] at hc
    rcases List.mem_append.mp hc with hc | hc
    · have : c = '-' := by simpa using hc
      subst this; decide
    · exact hd _ c hc

theorem htmlEscape_chars {t : Text} {c : Char} (h : c ∈ htmlEscape t) : c ≠ '<' ∧ c ≠ '>' ∧ c ≠ '"' ∧ (c = '\n' → c ∈ t) := by
  unfold htmlEscape at h
  rw [List.mem_flatMap] at h
  obtain ⟨d, hd, hc⟩ := h
  have lit : ∀ s : Text, (∀ x ∈ s, x ≠ '<' ∧ x ≠ '>' ∧ x ≠ '"' ∧ x ≠ '\n') → c ∈ s → c ≠ '<' ∧ c ≠ '>' ∧ c ≠ '"' ∧ (c = '\n' → c ∈ t) :=
    fun s hs hc => ⟨(hs c hc).1, (hs c hc).2.1, (hs c hc).2.2.1, fun e => absurd e (hs c hc).2.2.2⟩
  split at hc
  · exact lit _ (by decide) hc
  split at hc
  · exact lit _ (by decide) hc
  split at hc
  · exact lit _ (by decide) hc
  split at hc
  · exact lit _ (by decide) hc
  split at hc
  · exact lit _ (by decide) hc
  split at hc
  · exact lit _ (by decide) hc
  · rename_i h1 h2 h3 h4 h5
    rw [List.mem_singleton] at hc
    subst hc
    exact ⟨by assumption, by assumption, by assumption, fun _ => hd⟩

theorem plain_htmlEscape (t : Text) : Plain (htmlEscape t) := fun _ h => ⟨(htmlEscape_chars h).1, (htmlEscape_chars h).2.1⟩

theorem value_htmlEscape {R t} (h : Value R t) : Value R (htmlEscape t) := fun c hc =>
  have := htmlEscape_chars hc
  ⟨this.2.2.1, this.1, fun ho e => (h c (this.2.2.2 e)).2.2 ho e⟩

theorem plain_escape (t : Text) : Plain (Escape.escapeString t) := fun c hc =>
  have := C27.no_markup t c hc
  ⟨this.1, this.2.1⟩

theorem esc1_nl (c : Char) (t : Text) (hc : '\n' ∈ C27.esc1 c t) : c = '\n' := by
  rcases C27.esc1_cases c t with ⟨h, _⟩ | ⟨_, _, h⟩ | ⟨_, _, h⟩ | ⟨_, h⟩ | ⟨_, h⟩ | ⟨_, h⟩ | ⟨_, h⟩
  · rw [h, List.mem_singleton] at hc; exact hc.symm
  all_goals rw [h] at hc; exact absurd hc (by decide)

theorem escape_nl : ∀ t : Text, '\n' ∈ C27.esc t → '\n' ∈ t
  | [], h => h
  | c :: t, h => by
    rcases List.mem_append.mp h with h | h
    · rw [esc1_nl c t h]; exact List.mem_cons_self ..
    · exact List.mem_cons_of_mem _ (escape_nl t h)

theorem value_escape {R t} (h : OneLine R t) : Value R (Escape.escapeString t) := fun c hc =>
  have := C27.no_markup t c hc
  ⟨this.2.2.2, this.1, fun ho e => by
    subst e
    rw [C27.escape_esc] at hc
    exact h ho (escape_nl t hc)⟩

/-! ### Filled texts -/

theorem filled_all {R} {l : List El} {t} (h : ∀ u, .str u ∈ l → Plain u) (hf : Filled R l t) : Markup R t := by
  induction hf with
  | nil => exact .empty
  | str _ ih =>
    exact (Plain.markup (h _ (List.mem_cons_self ..))).append (ih fun u hu => h u (List.mem_cons_of_mem _ hu))
  | other _ ht _ ih => exact ht.append (ih fun u hu => h u (List.mem_cons_of_mem _ hu))

end Verif.Rend
