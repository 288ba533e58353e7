import Verif.Model.Subs
import Mathlib.Data.List.Forall2
import Mathlib.Data.List.Induction
/-!
C22: the `subs` attribute denotes the documented set of substitutions.
-/
namespace Verif.C22
open Verif.Subs

/-! ## Specification

https://docs.asciidoctor.org/asciidoc/latest/subs/apply-subs-to-blocks/ : "set `subs` to a comma-separated list of
substitutions"; "`<substitution>+` prepends the substitution to the default list, `+<substitution>` appends it,
`-<substitution>` removes it". -/

/-- An entry of the `subs` attribute, with the substitutions that its name stands for. -/
inductive Mod where
  | prepend (g : List Sub)
  | append (g : List Sub)
  | remove (g : List Sub)
  | plain (g : List Sub)

/-- The groups and the single substitutions, by name. -/
def named : List (String × List Sub) :=
  [("none", []), ("normal", [.passthroughs, .attributes, .specialchars, .quotes, .replacements, .macros, .postReplacements]),
   ("verbatim", [.callouts, .specialchars]), ("attributes", [.attributes]), ("callouts", [.callouts]), ("macros", [.macros]),
   ("post_replacements", [.postReplacements]), ("quotes", [.quotes]), ("replacements", [.replacements]), ("specialchars", [.specialchars])]

/-- How an entry is written. -/
inductive Writes : Text → Mod → Prop where
  | prepend (name g) : (name, g) ∈ named → Writes (name.toList ++ ['+']) (.prepend g)
  | append (name g) : (name, g) ∈ named → Writes ('+' :: name.toList) (.append g)
  | remove (name g) : (name, g) ∈ named → Writes ('-' :: name.toList) (.remove g)
  | plain (name g) : (name, g) ∈ named → Writes name.toList (.plain g)

/-- A comma-separated list. -/
def commaJoin : List Text → Text
  | [] => []
  | [t] => t
  | t :: u :: ts => t ++ ',' :: commaJoin (u :: ts)

/-- Whether an entry removes a substitution. -/
def Mod.removes (s : Sub) : Mod → Bool
  | .remove g => g.contains s
  | _ => false

/-- What is left of some substitutions after the following entries. -/
def left (g : List Sub) (later : List Mod) : List Sub := g.filter (fun s => !later.any (Mod.removes s))

/-- What the entries put in front: the last one comes first. -/
def front : List Mod → List Sub
  | [] => []
  | .prepend g :: ms => front ms ++ left g ms
  | _ :: ms => front ms

/-- What the entries put at the end, in order. -/
def back : List Mod → List Sub
  | [] => []
  | .append g :: ms => left g ms ++ back ms
  | .plain g :: ms => left g ms ++ back ms
  | _ :: ms => back ms

/-- Whether an entry is relative to the default. -/
def Mod.relative : Mod → Bool
  | .plain _ => false
  | _ => true

/-- The meaning of a list of entries for a block with substitutions `dflt` by default: the default is the starting point if
all entries are relative to it. -/
def meaning (dflt : List Sub) (ms : List Mod) : List Sub :=
  let base := if ms.all Mod.relative then dflt else []
  front ms ++ left base ms ++ back ms

/-! ## Names -/

theorem substitutionsFor_named : ∀ (name : String) (g : List Sub), (name, g) ∈ named → substitutionsFor name.toList = some g := by
  intro name g h
  simp only [named, List.mem_cons, Prod.mk.injEq, List.not_mem_nil, or_false] at h
  rcases h with ⟨rfl, rfl⟩ | ⟨rfl, rfl⟩ | ⟨rfl, rfl⟩ | ⟨rfl, rfl⟩ | ⟨rfl, rfl⟩ | ⟨rfl, rfl⟩ | ⟨rfl, rfl⟩ | ⟨rfl, rfl⟩ | ⟨rfl, rfl⟩ | ⟨rfl, rfl⟩ <;> decide

theorem named_substitutionsFor (s : Text) (g : List Sub) (h : substitutionsFor s = some g) : ∃ name, (name, g) ∈ named ∧ s = name.toList := by
  unfold substitutionsFor at h
  repeat' split at h
  all_goals first
    | (simp at h; done)
    | (rename_i hs; cases h; exact ⟨_, by simp [named, normal, verbatim], hs⟩)

/-- No name contains a modifier or a comma. -/
theorem named_chars (name : String) (g : List Sub) (h : (name, g) ∈ named) :
    name.toList ≠ [] ∧ ∀ c ∈ name.toList, c ≠ '+' ∧ c ≠ '-' ∧ c ≠ ',' := by
  simp only [named, List.mem_cons, Prod.mk.injEq, List.not_mem_nil, or_false] at h
  rcases h with ⟨rfl, rfl⟩ | ⟨rfl, rfl⟩ | ⟨rfl, rfl⟩ | ⟨rfl, rfl⟩ | ⟨rfl, rfl⟩ | ⟨rfl, rfl⟩ | ⟨rfl, rfl⟩ | ⟨rfl, rfl⟩ | ⟨rfl, rfl⟩ | ⟨rfl, rfl⟩ <;> decide

theorem name_head (name : String) (g : List Sub) (h : (name, g) ∈ named) (c : Char) (hc : c = '+' ∨ c = '-') : starts c name.toList = false := by
  have := (named_chars name g h).2
  unfold starts
  cases hn : name.toList with
  | nil => simp
  | cons d t =>
    have := this d (by rw [hn]; simp)
    rcases hc with rfl | rfl
    · simp [this.1]
    · simp [this.2.1]

theorem name_last (name : String) (g : List Sub) (h : (name, g) ∈ named) : endsPlus name.toList = false := by
  have := (named_chars name g h).2
  unfold endsPlus
  cases hl : name.toList.getLast? with
  | none => rfl
  | some d =>
    have := this d (List.mem_of_getLast? hl)
    simp [this.1]

/-- The modifier of an entry as the code sees it, with the name it looks up. -/
theorem applyOne_some (seq seq' : List Sub) (s : Text) (h : applyOne seq s = some seq') : ∃ m, Writes s m := by
  unfold applyOne at h
  split at h
  · rename_i h1
    simp only [Option.map_eq_some_iff] at h
    obtain ⟨g, hg, -⟩ := h
    obtain ⟨name, hn, e⟩ := named_substitutionsFor _ _ hg
    refine ⟨.prepend g, ?_⟩
    have : s = name.toList ++ ['+'] := by
      unfold endsPlus at h1
      have h1 : s.getLast? = some '+' := by simpa using h1
      rw [← e]
      exact (List.dropLast_append_getLast? '+' (by simpa using h1)).symm
    rw [this]; exact Writes.prepend _ _ hn
  · split at h
    · rename_i _ h1
      simp only [Option.map_eq_some_iff] at h
      obtain ⟨g, hg, -⟩ := h
      obtain ⟨name, hn, e⟩ := named_substitutionsFor _ _ hg
      refine ⟨.append g, ?_⟩
      have : s = '+' :: name.toList := by
        unfold starts at h1
        cases s with
        | nil => simp at h1
        | cons c t => simp at h1; simp at e; rw [h1, e]
      rw [this]; exact Writes.append _ _ hn
    · split at h
      · rename_i _ _ h1
        simp only [Option.map_eq_some_iff] at h
        obtain ⟨g, hg, -⟩ := h
        obtain ⟨name, hn, e⟩ := named_substitutionsFor _ _ hg
        refine ⟨.remove g, ?_⟩
        have : s = '-' :: name.toList := by
          unfold starts at h1
          cases s with
          | nil => simp at h1
          | cons c t => simp at h1; simp at e; rw [h1, e]
        rw [this]; exact Writes.remove _ _ hn
      · simp only [Option.map_eq_some_iff] at h
        obtain ⟨g, hg, -⟩ := h
        obtain ⟨name, hn, e⟩ := named_substitutionsFor _ _ hg
        exact ⟨.plain g, by rw [e]; exact Writes.plain _ _ hn⟩

/-- What one entry does. -/
def Mod.act (seq : List Sub) : Mod → List Sub
  | .prepend g => g ++ seq
  | .append g => seq ++ g
  | .remove g => seq.filter (fun s => !g.contains s)
  | .plain g => seq ++ g

theorem removeAll_filter : ∀ (g seq : List Sub), removeAll seq g = seq.filter (fun s => !g.contains s)
  | [], seq => by rw [removeAll]; symm; rw [List.filter_eq_self]; simp
  | r :: rs, seq => by
    rw [removeAll, removeAll_filter rs, List.filter_filter]
    congr 1
    funext s
    by_cases h : s = r
    · subst h; simp
    · simp [h]

theorem applyOne_writes (seq : List Sub) (s : Text) (m : Mod) (h : Writes s m) : applyOne seq s = some (m.act seq) := by
  cases h with
  | prepend name g hn =>
    have : endsPlus (name.toList ++ ['+']) = true := by simp [endsPlus]
    rw [applyOne, if_pos this, List.dropLast_concat, substitutionsFor_named name g hn]; rfl
  | append name g hn =>
    have h1 : endsPlus ('+' :: name.toList) = false := by
      have := name_last name g hn
      unfold endsPlus at *
      cases hl : name.toList with
      | nil => exact absurd hl (named_chars name g hn).1
      | cons c t => rw [List.getLast?_cons_cons, ← hl]; exact this
    have h2 : starts '+' ('+' :: name.toList) = true := rfl
    rw [applyOne, if_neg (by simp [h1]), if_pos h2, List.drop_succ_cons, List.drop_zero, substitutionsFor_named name g hn]; rfl
  | remove name g hn =>
    have h1 : endsPlus ('-' :: name.toList) = false := by
      have := name_last name g hn
      unfold endsPlus at *
      cases hl : name.toList with
      | nil => exact absurd hl (named_chars name g hn).1
      | cons c t => rw [List.getLast?_cons_cons, ← hl]; exact this
    have h2 : starts '+' ('-' :: name.toList) = false := rfl
    have h3 : starts '-' ('-' :: name.toList) = true := rfl
    rw [applyOne, if_neg (by simp [h1]), if_neg (by simp [h2]), if_pos h3, List.drop_succ_cons, List.drop_zero, substitutionsFor_named name g hn]
    simp only [Option.map_some, Mod.act, removeAll_filter]
  | plain name g hn =>
    have h1 := name_last name g hn
    have h2 := name_head name g hn '+' (Or.inl rfl)
    have h3 := name_head name g hn '-' (Or.inr rfl)
    rw [applyOne, if_neg (by simp [h1]), if_neg (by simp [h2]), if_neg (by simp [h3]), substitutionsFor_named name g hn]; rfl

theorem incremental_writes (s : Text) (m : Mod) (h : Writes s m) : (starts '+' s || starts '-' s || endsPlus s) = m.relative := by
  cases h with
  | prepend name g hn => simp [Mod.relative, endsPlus]
  | append name g hn => simp [Mod.relative, starts]
  | remove name g hn => simp [Mod.relative, starts]
  | plain name g hn =>
    rw [name_last name g hn, name_head name g hn '+' (Or.inl rfl), name_head name g hn '-' (Or.inr rfl)]; rfl

/-! ## Lists of entries -/

theorem applyAll_writes : ∀ (ss : List Text) (ms : List Mod) (seq : List Sub), List.Forall₂ Writes ss ms →
    applyAll seq ss = some (ms.foldl Mod.act seq)
  | [], _, seq, h => by cases h; rfl
  | s :: ss, _, seq, h => by
    cases h with
    | cons h1 h2 =>
      rw [applyAll, applyOne_writes seq s _ h1]
      exact applyAll_writes ss _ _ h2

theorem applyAll_some : ∀ (ss : List Text) (seq seq' : List Sub), applyAll seq ss = some seq' → ∃ ms, List.Forall₂ Writes ss ms
  | [], _, _, _ => ⟨[], .nil⟩
  | s :: ss, seq, seq', h => by
    rw [applyAll] at h
    split at h
    · simp at h
    · rename_i seq1 h1
      obtain ⟨m, hm⟩ := applyOne_some _ _ _ h1
      obtain ⟨ms, hms⟩ := applyAll_some ss _ _ h
      exact ⟨m :: ms, .cons hm hms⟩

theorem left_nil (ms : List Mod) : left [] ms = [] := rfl

theorem left_append (g h : List Sub) (ms : List Mod) : left (g ++ h) ms = left g ms ++ left h ms := by simp [left]

theorem left_none (g : List Sub) : left g [] = g := by simp [left]

theorem foldl_meaning : ∀ (ms : List Mod) (base : List Sub), ms.foldl Mod.act base = front ms ++ left base ms ++ back ms
  | [], base => by simp [front, back, left_none]
  | m :: ms, base => by
    rw [List.foldl_cons, foldl_meaning ms]
    have same : (∀ s, m.removes s = false) → left base (m :: ms) = left base ms := by
      intro h
      simp [left, h]
    cases m with
    | prepend g => rw [same (fun _ => rfl)]; simp [Mod.act, front, back, left_append]
    | append g => rw [same (fun _ => rfl)]; simp [Mod.act, front, back, left_append]
    | plain g => rw [same (fun _ => rfl)]; simp [Mod.act, front, back, left_append]
    | remove g =>
      have : left base (.remove g :: ms) = left (base.filter (fun s => !g.contains s)) ms := by
        simp only [left, List.filter_filter]
        congr 1
        funext s
        simp [Mod.removes, Bool.and_comm]
      rw [this]
      simp [Mod.act, front, back]

theorem splitComma_ne (t : Text) : splitComma t ≠ [] := by
  cases t with
  | nil => simp [splitComma]
  | cons c t =>
    simp only [splitComma]
    split
    · simp
    · split <;> simp

theorem splitComma_noComma : ∀ (t : Text), ',' ∉ t → splitComma t = [t]
  | [], _ => rfl
  | c :: t, h => by
    simp only [List.mem_cons, not_or] at h
    simp only [splitComma]
    rw [if_neg (Ne.symm h.1), splitComma_noComma t h.2]

theorem splitComma_append (u : Text) : ∀ (t : Text), ',' ∉ t → splitComma (t ++ ',' :: u) = t :: splitComma u
  | [], _ => by simp [splitComma]
  | c :: t, h => by
    simp only [List.mem_cons, not_or] at h
    simp only [List.cons_append, splitComma]
    rw [if_neg (Ne.symm h.1), splitComma_append u t h.2]

theorem splitComma_join : ∀ (ss : List Text), ss ≠ [] → (∀ s ∈ ss, ',' ∉ s) → splitComma (commaJoin ss) = ss
  | [], h, _ => absurd rfl h
  | [t], _, h => splitComma_noComma t (h t (by simp))
  | t :: u :: ts, _, h => by
    rw [commaJoin, splitComma_append _ t (h t (by simp)), splitComma_join (u :: ts) (by simp) (fun s hs => h s (by simp at hs; simp [hs]))]

theorem join_splitComma : ∀ (t : Text), commaJoin (splitComma t) = t
  | [] => rfl
  | c :: t => by
    have ih := join_splitComma t
    simp only [splitComma]
    split
    · rename_i h
      subst h
      cases hs : splitComma t with
      | nil => exact absurd hs (splitComma_ne t)
      | cons l ls => rw [hs] at ih; simp [commaJoin, ih]
    · split
      · rename_i hs; exact absurd hs (splitComma_ne t)
      · rename_i l ls hs
        rw [hs] at ih
        cases ls with
        | nil => simp only [commaJoin] at ih ⊢; rw [ih]
        | cons m ls => simp only [commaJoin, List.cons_append] at ih ⊢; rw [ih]

theorem writes_noComma (s : Text) (m : Mod) (h : Writes s m) : ',' ∉ s := by
  cases h with
  | prepend name g hn =>
    intro hc
    rcases List.mem_append.1 hc with hc | hc
    · exact ((named_chars name g hn).2 _ hc).2.2 rfl
    · simp at hc
  | append name g hn =>
    intro hc
    rcases List.mem_cons.1 hc with hc | hc
    · simp at hc
    · exact ((named_chars name g hn).2 _ hc).2.2 rfl
  | remove name g hn =>
    intro hc
    rcases List.mem_cons.1 hc with hc | hc
    · simp at hc
    · exact ((named_chars name g hn).2 _ hc).2.2 rfl
  | plain name g hn => intro hc; exact ((named_chars name g hn).2 _ hc).2.2 rfl

theorem incremental_all : ∀ (ss : List Text) (ms : List Mod), List.Forall₂ Writes ss ms → allIncremental ss = ms.all Mod.relative
  | [], _, h => by cases h; rfl
  | s :: ss, _, h => by
    cases h with
    | cons h1 h2 =>
      have := incremental_all ss _ h2
      simp only [allIncremental, List.all_cons] at this ⊢
      rw [this, incremental_writes s _ h1]

/-- C22: a comma-separated list of entries written with known names evaluates to its documented meaning. -/
theorem subs_meaning (b : Block) (ss : List Text) (ms : List Mod) (hne : ss ≠ []) (h : List.Forall₂ Writes ss ms) :
    newSubstitutions b (some (commaJoin ss)) = some (meaning (default b) ms) := by
  have hc : ∀ s ∈ ss, ',' ∉ s := by
    clear hne
    induction h with
    | nil => simp
    | cons h1 _ ih =>
      intro s hs
      rcases List.mem_cons.1 hs with hs | hs
      · subst hs; exact writes_noComma _ _ h1
      · exact ih s hs
  simp only [newSubstitutions, splitComma_join ss hne hc, incremental_all ss ms h]
  rw [applyAll_writes ss ms _ h, foldl_meaning]
  rfl

/-- C22: any other value is an error. -/
theorem otherwise_error (b : Block) (attr : Text) (h : ∀ ss ms, List.Forall₂ Writes ss ms → commaJoin ss ≠ attr) :
    newSubstitutions b (some attr) = none := by
  cases hn : newSubstitutions b (some attr) with
  | none => rfl
  | some r =>
    simp only [newSubstitutions] at hn
    obtain ⟨ms, hms⟩ := applyAll_some _ _ _ hn
    exact absurd (join_splitComma attr) (h _ ms hms)

/-- C22: without a `subs` attribute, the default of the block applies. -/
theorem no_subs (b : Block) : newSubstitutions b none = some (default b) := rfl

/-- The documented defaults (https://docs.asciidoctor.org/asciidoc/latest/subs/): the verbatim group for listing, literal and
source blocks and paragraphs, nothing for comments and passthroughs, the normal group for everything else. -/
def documented : Block → Text
  | .listing | .fenced | .literal | .listingParagraph | .literalParagraph | .sourceParagraph => "verbatim".toList
  | .comment | .pass | .passParagraph => "none".toList
  | .example_ | .quote | .verse | .sidebar | .markdownQuote | .open_ | .otherParagraph | .other => "normal".toList

/-- C22: the default is the documented one (as if `subs` had been set to the name of the group), except for literal and source
paragraphs. -/
theorem default_documented (b : Block) (h1 : b ≠ .literalParagraph) (h2 : b ≠ .sourceParagraph) :
    newSubstitutions b none = newSubstitutions b (some (documented b)) := by
  cases b <;> first | rfl | exact absurd rfl h1 | exact absurd rfl h2

/-- Finding: the content of literal paragraphs (indented, or `[literal]`) and of `[source]` paragraphs gets the normal
substitutions, so that e.g. quotes and macros in it are processed. -/
theorem finding_literal_paragraphs :
    newSubstitutions .literalParagraph none = newSubstitutions .literalParagraph (some "normal".toList) ∧
    newSubstitutions .sourceParagraph none = newSubstitutions .sourceParagraph (some "normal".toList) ∧
    newSubstitutions .literalParagraph none ≠ newSubstitutions .literalParagraph (some "verbatim".toList) := by
  exact ⟨rfl, rfl, by intro h; cases h⟩

/-- Whether an entry adds a substitution. -/
def Mod.adds (s : Sub) : Mod → Bool
  | .prepend g => g.contains s
  | .append g => g.contains s
  | .plain g => g.contains s
  | .remove _ => false

/-- C22, the last mention wins: a substitution is applied if the last entry about it adds it, and not if that entry removes
it; if there is none, what counts is the starting point. -/
theorem last_mention_wins (base : List Sub) (ms : List Mod) (s : Sub) :
    s ∈ front ms ++ left base ms ++ back ms ↔
      match ms.reverse.find? (fun m => m.adds s || m.removes s) with
      | some m => m.adds s = true
      | none => s ∈ base := by
  rw [← foldl_meaning]
  induction ms using List.reverseRecOn with
  | nil => simp
  | append_singleton ms m ih =>
    rw [List.foldl_append, List.foldl_cons, List.foldl_nil, List.reverse_append, List.reverse_singleton, List.singleton_append, List.find?_cons]
    cases m with
    | prepend g =>
      by_cases hs : s ∈ g
      · simp [Mod.act, Mod.adds, hs]
      · have hc : List.contains g s = false := by simpa using hs
        have hx : ((Mod.prepend g).adds s || (Mod.prepend g).removes s) = false := by show (List.contains g s || false) = false; rw [hc]; rfl
        rw [hx]
        have : s ∈ (Mod.prepend g).act (ms.foldl Mod.act base) ↔ s ∈ ms.foldl Mod.act base := by
          simp [Mod.act, hs]
        rw [this]
        exact ih
    | append g =>
      by_cases hs : s ∈ g
      · simp [Mod.act, Mod.adds, hs]
      · have hc : List.contains g s = false := by simpa using hs
        have hx : ((Mod.append g).adds s || (Mod.append g).removes s) = false := by show (List.contains g s || false) = false; rw [hc]; rfl
        rw [hx]
        have : s ∈ (Mod.append g).act (ms.foldl Mod.act base) ↔ s ∈ ms.foldl Mod.act base := by
          simp [Mod.act, hs]
        rw [this]
        exact ih
    | plain g =>
      by_cases hs : s ∈ g
      · simp [Mod.act, Mod.adds, hs]
      · have hc : List.contains g s = false := by simpa using hs
        have hx : ((Mod.plain g).adds s || (Mod.plain g).removes s) = false := by show (List.contains g s || false) = false; rw [hc]; rfl
        rw [hx]
        have : s ∈ (Mod.plain g).act (ms.foldl Mod.act base) ↔ s ∈ ms.foldl Mod.act base := by
          simp [Mod.act, hs]
        rw [this]
        exact ih
    | remove g =>
      by_cases hs : s ∈ g
      · simp [Mod.act, Mod.adds, Mod.removes, hs]
      · have hc : List.contains g s = false := by simpa using hs
        have hx : ((Mod.remove g).adds s || (Mod.remove g).removes s) = false := by exact hc
        rw [hx]
        have : s ∈ (Mod.remove g).act (ms.foldl Mod.act base) ↔ s ∈ ms.foldl Mod.act base := by
          simp [Mod.act, hs]
        rw [this]
        exact ih

/-! ## The two phases -/

theorem splitLoop_spec : ∀ (seq : List Sub) (p : Option (List Sub)),
    (∃ pre post, seq = pre ++ .attributes :: post ∧ post ≠ [] ∧ .attributes ∉ post.dropLast ∧ splitLoop p seq = some post) ∨
      (.attributes ∉ seq.dropLast ∧ splitLoop p seq = p)
  | [], p => Or.inr ⟨by simp, rfl⟩
  | s :: ss, p => by
    rw [splitLoop]
    rcases splitLoop_spec ss (if s = .attributes ∧ ss ≠ [] then some ss else p) with ⟨pre, post, h1, h2, h3, h4⟩ | ⟨h1, h2⟩
    · exact Or.inl ⟨s :: pre, post, by rw [h1]; rfl, h2, h3, h4⟩
    · by_cases hs : s = .attributes ∧ ss ≠ []
      · rw [if_pos hs] at h2 ⊢
        exact Or.inl ⟨[], ss, by rw [hs.1]; rfl, hs.2, h1, h2⟩
      · rw [if_neg hs] at h2 ⊢
        refine Or.inr ⟨?_, h2⟩
        cases ss with
        | nil => simp
        | cons t ts =>
          rw [List.dropLast_cons₂]
          intro hc
          rcases List.mem_cons.1 hc with hc | hc
          · exact hs ⟨hc.symm, by simp⟩
          · exact h1 hc

/-- C22, second phase: text inserted by attribute references gets exactly the substitutions listed after `attributes` (the
last one, unless it ends the list); nothing if `attributes` is missing or ends the list. -/
theorem second_phase (seq : List Sub) :
    (∃ pre post, seq = pre ++ .attributes :: post ∧ post ≠ [] ∧ .attributes ∉ post.dropLast ∧ split seq = some post) ∨
      (.attributes ∉ seq.dropLast ∧ split seq = none) := splitLoop_spec seq none

/-! ## Examples and findings -/

example : newSubstitutions .listing (some "attributes+,-callouts,+quotes".toList) = some [.attributes, .specialchars, .quotes] := by decide
example : List.Forall₂ Writes ["attributes+".toList, "-callouts".toList, "+quotes".toList] [.prepend [.attributes], .remove [.callouts], .append [.quotes]] :=
  .cons (.prepend "attributes" _ (by simp [named])) (.cons (.remove "callouts" _ (by simp [named])) (.cons (.append "quotes" _ (by simp [named])) .nil))
example : commaJoin ["attributes+".toList, "-callouts".toList, "+quotes".toList] = "attributes+,-callouts,+quotes".toList := by decide
example : split normal = some [.specialchars, .quotes, .replacements, .macros, .postReplacements] := by decide

/-- Finding: in a list that mixes plain and incremental entries, the incremental ones do not refer to the default but to an
empty list: `subs="-quotes,attributes"` on a paragraph is just `attributes`. -/
theorem finding_mixed (b : Block) : newSubstitutions b (some "-quotes,attributes".toList) = some [.attributes] := by
  cases b <;> decide

/-- Finding: spaces around the entries make the block an error. -/
theorem finding_spaces (b : Block) : newSubstitutions b (some "quotes, macros".toList) = none := by
  cases b <;> decide

/-- Finding: the passthrough substitution has no name: it cannot be added to a verbatim block nor removed alone. -/
theorem finding_passthroughs_unnamed (g : List Sub) (name : String) (h : (name, g) ∈ named) : g ≠ [.passthroughs] := by
  simp only [named, List.mem_cons, Prod.mk.injEq, List.not_mem_nil, or_false] at h
  rcases h with ⟨rfl, rfl⟩ | ⟨rfl, rfl⟩ | ⟨rfl, rfl⟩ | ⟨rfl, rfl⟩ | ⟨rfl, rfl⟩ | ⟨rfl, rfl⟩ | ⟨rfl, rfl⟩ | ⟨rfl, rfl⟩ | ⟨rfl, rfl⟩ | ⟨rfl, rfl⟩ <;> decide

end Verif.C22
