import Verif.Proofs.Lines
import Verif.Proofs.Keeps

/-!
# C49 — The extent of delimited blocks

A line that opens a block (parser.peg:739-810) starts one that contains exactly the following lines up to the first one that closes it, or the end of
the document: what these lines contain has no influence.
-/
namespace Verif
namespace C49
open Peg Grammar C48

/-! ### Specification -/

/-- The number of `c` at the beginning of a line. -/
def leading (c : Char) (l : Text) : Nat := (l.takeWhile (· == c)).length

/-- A line made of at least `k` times the character `c`, and blanks after them: how many `c`. -/
def delimLen (c : Char) (k : Nat) (l : Text) : Option Nat :=
  if k ≤ leading c l ∧ (l.dropWhile (· == c)).all isBlank then some (leading c l) else none

/-- A block opened by such a line is closed by a line with the same number of characters. -/
def sized (c : Char) (k : Nat) (l : Text) : Option (Text → Bool) :=
  (delimLen c k l).map (fun n m => delimLen c k m == some n)

/-- Comments are closed by a line of any length. -/
def comment (l : Text) : Option (Text → Bool) :=
  if (delimLen '/' 4 l).isSome then some (fun m => (delimLen '/' 4 m).isSome) else none

/-- `k` characters exactly, and blanks. -/
def exactly (c : Char) (k : Nat) (l : Text) : Bool := l.take k == List.replicate k c && (l.drop k).all isBlank

/-- Open blocks: two dashes. -/
def openBlock (l : Text) : Option (Text → Bool) := if exactly '-' 2 l then some (exactly '-' 2) else none

/-- The characters of the language of a block of code. -/
def isLang (c : Char) : Bool := !(c == '\r' || c == '\n' || c == '`' || c == ' ')

/-- Three backquotes and a language: closed by three backquotes. -/
def code (l : Text) : Option (Text → Bool) :=
  if l.take 3 = "```".toList ∧ ((l.drop 3).head?.any isLang) ∧ ((l.drop 3).dropWhile isLang).all isBlank then some (exactly '`' 3) else none

/-- Which lines close the block that a line opens, if it opens one. -/
def closing (l : Text) : Option (Text → Bool) :=
  (comment l).or <| (sized '=' 4 l).or <| (code l).or <| (sized '`' 3 l).or <| (sized '-' 4 l).or <| (sized '.' 4 l).or <|
  (openBlock l).or <| (sized '+' 4 l).or <| (sized '_' 4 l).or (sized '*' 4 l)

/-- The lines of the block. -/
def content (close : Text → Bool) (ls : List (Text × Text)) : List Text := (ls.takeWhile (fun l => !close l.1)).map (·.1)

/-- What follows the line that closes the block. -/
def rest (close : Text → Bool) (ls : List (Text × Text)) : Text := joins (ls.dropWhile (fun l => !close l.1)).tail

/-! ### The code of the grammar -/

/-- Predicates that store the length of the delimiter, with its character (parser.peg:841-1076). -/
def setters : List (Nat × Char) := [(141, '='), (145, '`'), (149, '-'), (153, '.'), (164, '+'), (168, '_'), (172, '*')]

/-- Predicates that compare the length of the delimiter to the stored one (parser.peg:853-1088). -/
def matchers : List (Nat × Char) := [(143, '='), (147, '`'), (151, '-'), (155, '.'), (166, '+'), (170, '_'), (174, '*')]

/-- What is assumed of the code of the grammar on the lengths of delimiters. `len` is `c.globalStore[blockDelimiterLengthKey]` (parser_ext.go:241-249); the
length in `types.BlockDelimiter` is the one of the characters of the delimiter (parser.peg:746-808). Going back does not change the store. -/
structure LenCode {σ : Type} (S : Sem σ) (len : σ → Nat) : Prop where
  set : ∀ x ∈ setters, ∀ s p t, (S.pred x.1 s (p ++ t) t).1 = true ∧ len (S.pred x.1 s (p ++ t) t).2 = leading x.2 p
  same : ∀ x ∈ matchers, ∀ s p t, (S.pred x.1 s (p ++ t) t).1 = (len s == leading x.2 p)
  pred_len : ∀ id s st t, id ∉ setters.map (·.1) → len (S.pred id s st t).2 = len s
  state_len : ∀ id s st t, len (S.state id s st t) = len s
  act_len : ∀ id s t u, len (S.act id s t u) = len s
  restore_len : ∀ a b, len (S.restore a b) = len b

/-- What is assumed of the code of the grammar: the lengths, and that `log` is the lines made by `DelimitedBlockRawLine` (parser.peg:810-814) in what
was parsed. Going back forgets the lines, not the store. -/
structure BlockCode {σ : Type} (S : Sem σ) (len : σ → Nat) (log : σ → List Text) : Prop extends LenCode S len where
  pred_log : ∀ id s st t, log (S.pred id s st t).2 = log s
  state_log : ∀ id s st t, log (S.state id s st t) = log s
  act_log : ∀ id s t u, id ≠ 138 → log (S.act id s t u) = log s
  line : ∀ s t u, log (S.act 138 s t u) = log s ++ [firstLine t]
  restore_log : ∀ a b, log (S.restore a b) = log a

theorem BlockCode.state {σ : Type} {S : Sem σ} {len : σ → Nat} {log : σ → List Text} (h : BlockCode S len log) (id : Nat) (s : σ) (st t : Text) :
    len (S.state id s st t) = len s ∧ log (S.state id s st t) = log s := ⟨h.state_len id s st t, h.state_log id s st t⟩

theorem BlockCode.restore {σ : Type} {S : Sem σ} {len : σ → Nat} {log : σ → List Text} (h : BlockCode S len log) (a b : σ) :
    len (S.restore a b) = len b ∧ log (S.restore a b) = log a := ⟨h.restore_len a b, h.restore_log a b⟩

/-! ### Delimiters -/

theorem matchLit_replicate {c : Char} (hc : c ≠ '\uFFFD') : ∀ (k : Nat) (t : Text),
    matchLit (List.replicate k c) t = if k ≤ leading c t then some (t.drop k) else none
  | 0, t => by simp [matchLit]
  | k + 1, [] => by simp [List.replicate_succ, matchLit, hc, leading]
  | k + 1, d :: t => by
    rw [List.replicate_succ, matchLit]
    by_cases h : c = d
    · subst h
      rw [if_pos rfl, matchLit_replicate hc k t]
      have e : leading c (c :: t) = leading c t + 1 := by unfold leading; rw [List.takeWhile_cons_of_pos (by simp)]; rfl
      rw [e, List.drop_succ_cons]
      by_cases hk : k ≤ leading c t
      · rw [if_pos hk, if_pos (by omega)]
      · rw [if_neg hk, if_neg (by omega)]
    · rw [if_neg h]
      have : leading c (d :: t) = 0 := by unfold leading; rw [List.takeWhile_cons_of_neg (by simpa using Ne.symm h)]; rfl
      simp [this]

theorem leading_firstLine {c : Char} (hc : isEol c = false) (t : Text) : leading c (firstLine t) = leading c t := by
  induction t with
  | nil => rfl
  | cons d t ih =>
    cases hd : isEol d with
    | true =>
      have : d ≠ c := by rintro rfl; rw [hc] at hd; cases hd
      rw [firstLine_eol t hd]
      unfold leading
      rw [List.takeWhile_cons_of_neg (by simpa using this)]
      rfl
    | false =>
      rw [firstLine_cons t hd]
      by_cases h : d = c
      · subst h
        have e : ∀ l : Text, leading d (d :: l) = leading d l + 1 := by
          intro l; unfold leading; rw [List.takeWhile_cons_of_pos (by simp)]; rfl
        rw [e, e, ih]
      · have e : ∀ l : Text, leading c (d :: l) = 0 := by
          intro l; unfold leading; rw [List.takeWhile_cons_of_neg (by simpa using h)]; rfl
        rw [e, e]

theorem dropWhile_drop {c : Char} : ∀ (k : Nat) (t : Text), k ≤ leading c t → (t.drop k).dropWhile (· == c) = t.dropWhile (· == c)
  | 0, t, _ => rfl
  | k + 1, [], _ => rfl
  | k + 1, d :: t, h => by
    by_cases hd : d = c
    · subst hd
      rw [List.drop_succ_cons, List.dropWhile_cons_of_pos (by simp)]
      refine dropWhile_drop k t ?_
      unfold leading at h ⊢
      rw [List.takeWhile_cons_of_pos (by simp)] at h
      simpa using h
    · unfold leading at h
      rw [List.takeWhile_cons_of_neg (by simpa using hd)] at h
      simp at h

section
variable {σ : Type} {S : Sem σ}

theorem yields_star_lit {c : Char} (hc : c ≠ '\uFFFD') (t : Text) : Yields grammar S (.star (.lit [c])) t (some (t.dropWhile (· == c))) := by
  refine yields_star_of (fun x => x == c) ?_ ?_ ?_ t
  · exact yields_lit.to (by simp [matchLit, hc])
  · intro x t h
    exact yields_lit.to (by simp at h; simp [matchLit, h])
  · intro x t h
    exact yields_lit.to (by simp at h; simp [matchLit, Ne.symm h])

theorem yields_delimiter {i : Nat} {a b : Nat} {c : Char} {k : Nat} (hc : c ≠ '\uFFFD') (he : isEol c = false)
    (hG : grammar i = .act a (.scope (.seq (.act b (.scope (.seq (.lit (List.replicate k c)) (.star (.lit [c])))))
      (.seq (.star (.rule R.Space)) (.rule R.EOL))))) (t : Text) :
    Yields grammar S (.rule i) t (if (delimLen c k (firstLine t)).isSome then some (afterLine t) else none) := by
  refine yields_rule ?_
  rw [hG]
  refine yields_act (yields_scope ?_)
  have hl := matchLit_replicate hc k t
  have hlead := leading_firstLine he t
  by_cases hk : k ≤ leading c t
  · rw [if_pos hk] at hl
    have hd := firstLine_dropWhile (p := (· == c)) (by intro x hx; simp at hx; rw [hx]; exact he) t
    refine yields_seq (yields_act (yields_scope (yields_seq (yields_lit.to hl) (yields_star_lit hc _)))) ?_
    rw [dropWhile_drop k t hk]
    refine (yields_blanks_eol _).to ?_
    rw [hd.1, hd.2]
    by_cases hb : ((firstLine t).dropWhile (· == c)).all isBlank = true
    · have hD : delimLen c k (firstLine t) = some (leading c t) := by unfold delimLen; rw [hlead, if_pos ⟨hk, hb⟩]
      rw [hD, if_pos hb]; rfl
    · have hD : delimLen c k (firstLine t) = none := by unfold delimLen; rw [if_neg (fun h => hb h.2)]
      rw [hD, if_neg hb]; rfl
  · rw [if_neg hk] at hl
    have : delimLen c k (firstLine t) = none := by
      unfold delimLen; rw [hlead, if_neg (fun h => hk h.1)]
    rw [this]
    exact never_seq (yields_act (yields_scope (never_seq (yields_lit.to hl))))

theorem take_firstLine {c : Char} (he : isEol c = false) : ∀ (k : Nat) (t : Text), k ≤ leading c t →
    (firstLine t).take k = List.replicate k c ∧ (firstLine t).drop k = firstLine (t.drop k) ∧ afterLine (t.drop k) = afterLine t
  | 0, t, _ => ⟨rfl, rfl, rfl⟩
  | k + 1, [], h => absurd h (by simp [leading])
  | k + 1, d :: t, h => by
    by_cases hd : d = c
    · subst hd
      have h' : k ≤ leading d t := by
        unfold leading at h ⊢
        rw [List.takeWhile_cons_of_pos (by simp)] at h
        simpa using h
      obtain ⟨h1, h2, h3⟩ := take_firstLine he k t h'
      rw [firstLine_cons t he, List.take_succ_cons, List.drop_succ_cons, List.replicate_succ, h1, h2, afterLine_cons t he,
        List.drop_succ_cons]
      exact ⟨rfl, rfl, h3⟩
    · unfold leading at h
      rw [List.takeWhile_cons_of_neg (by simpa using hd)] at h
      simp at h

theorem take_replicate {c : Char} (he : isEol c = false) : ∀ (k : Nat) (t : Text), (firstLine t).take k = List.replicate k c → k ≤ leading c t := by
  intro k t h
  rw [← leading_firstLine he]
  have : firstLine t = List.replicate k c ++ (firstLine t).drop k := by
    conv => lhs; rw [← List.take_append_drop k (firstLine t), h]
  rw [this]
  unfold leading
  rw [List.takeWhile_append_of_pos (by intro x hx; simp [List.mem_replicate] at hx; simp [hx.2])]
  simp

theorem yields_exactly {c : Char} {k : Nat} (hc : c ≠ '\uFFFD') (he : isEol c = false) (t : Text) :
    Yields grammar S (.seq (.lit (List.replicate k c)) (.seq (.star (.rule R.Space)) (.rule R.EOL))) t
      (if exactly c k (firstLine t) then some (afterLine t) else none) := by
  have hl := matchLit_replicate hc k t
  by_cases hk : k ≤ leading c t
  · rw [if_pos hk] at hl
    obtain ⟨h1, h2, h3⟩ := take_firstLine he k t hk
    refine yields_seq (yields_lit.to hl) ((yields_blanks_eol _).to ?_)
    rw [h3, ← h2]
    unfold exactly
    simp [h1]
  · rw [if_neg hk] at hl
    refine (never_seq (yields_lit.to hl)).to ?_
    have : exactly c k (firstLine t) = false := by
      unfold exactly
      rw [Bool.and_eq_false_iff]
      left
      rw [beq_eq_false_iff_ne]
      exact fun h => hk (take_replicate he k t h)
    rw [this]; rfl

/-! ### Lines -/

variable {len : σ → Nat} {log : σ → List Text}

/-- Code that changes the length or the lines. -/
def loud : List Nat := 138 :: setters.map (·.1)

/-- Rules without such code. -/
def quietRules : List Nat := [R.NotEOF, R.EOF, R.EOL, R.Newline, R.Space, R.AnyChars, R.AnyChar, R.Language, R.CommentBlockDelimiter, R.ExampleBlockDelimiter, R.FencedBlockDelimiter,
  R.MarkdownCodeDelimiter, R.ListingBlockDelimiter, R.OpenBlockDelimiter, R.LiteralBlockDelimiter, R.PassthroughBlockDelimiter, R.QuoteBlockDelimiter,
  R.SidebarBlockDelimiter, R.CommentBlockStartDelimiter, R.CommentBlockEndDelimiter, R.ExampleBlockStartDelimiter, R.ExampleBlockEndDelimiter,
  R.FencedBlockStartDelimiter, R.FencedBlockEndDelimiter, R.ListingBlockStartDelimiter, R.ListingBlockEndDelimiter, R.LiteralBlockStartDelimiter,
  R.LiteralBlockEndDelimiter, R.MarkdownCodeBlockStartDelimiter, R.MarkdownCodeBlockEndDelimiter, R.OpenBlockStartDelimiter, R.OpenBlockEndDelimiter,
  R.PassthroughBlockStartDelimiter, R.PassthroughBlockEndDelimiter, R.QuoteBlockStartDelimiter, R.QuoteBlockEndDelimiter,
  R.SidebarBlockStartDelimiter, R.SidebarBlockEndDelimiter]

theorem quietRules_ok : quietRules.all (fun i => quiet loud (fun i => quietRules.contains i) (grammar i)) = true := by decide +kernel

theorem kept (hS : BlockCode S len log) {e : Exp} (he : quiet loud (fun i => quietRules.contains i) e = true) {st : Text} {s : σ} {t : Text} {r : Res σ}
    (h : Eval grammar S e st s t r) : len r.st = len s ∧ log r.st = log s := by
  obtain ⟨n, h⟩ := h
  have := run_keeps (G := grammar) (S := S) (fun s => (len s, log s)) loud (fun i => quietRules.contains i) ?_ ?_ ?_ ?_ ?_ n e st s t r he h
  · exact ⟨congrArg Prod.fst this, congrArg Prod.snd this⟩
  · intro i hi
    exact List.all_eq_true.mp quietRules_ok i (by simpa using hi)
  · intro id s st t hid
    have h1 := hS.pred_len id s st t (fun h => hid (List.mem_cons_of_mem _ h))
    rw [h1, hS.pred_log]
  · intro id s st t _
    rw [(hS.state id s st t).1, (hS.state id s st t).2]
  · intro id s t u hid
    rw [hS.act_len, hS.act_log id s t u (fun h => hid (h ▸ List.mem_cons_self))]
  · intro a b hab
    have h1 := congrArg Prod.fst hab
    have h2 := congrArg Prod.snd hab
    dsimp only at h1 h2 ⊢
    rw [(hS.restore a b).1, (hS.restore a b).2, h1]

theorem kept_rule (hS : BlockCode S len log) {i : Nat} (hi : i ∈ quietRules) {st : Text} {s : σ} {t : Text} {r : Res σ}
    (h : Eval grammar S (.rule i) st s t r) : len r.st = len s ∧ log r.st = log s :=
  kept hS (e := .rule i) (by show quietRules.contains i = true; simpa using hi) h

/-- The same, for the length only. -/
theorem kept_len (hS : LenCode S len) {e : Exp} (he : quiet loud (fun i => quietRules.contains i) e = true) {st : Text} {s : σ} {t : Text} {r : Res σ}
    (h : Eval grammar S e st s t r) : len r.st = len s := by
  obtain ⟨n, h⟩ := h
  refine run_keeps (G := grammar) (S := S) len loud (fun i => quietRules.contains i) ?_ ?_ ?_ ?_ ?_ n e st s t r he h
  · intro i hi
    exact List.all_eq_true.mp quietRules_ok i (by simpa using hi)
  · intro id s st t hid
    exact hS.pred_len id s st t (fun h => hid (List.mem_cons_of_mem _ h))
  · intro id s st t _
    exact hS.state_len id s st t
  · intro id s t u _
    exact hS.act_len id s t u
  · intro a b hab
    rw [hS.restore_len a b, hab]

theorem kept_rule_len (hS : LenCode S len) {i : Nat} (hi : i ∈ quietRules) {st : Text} {s : σ} {t : Text} {r : Res σ}
    (h : Eval grammar S (.rule i) st s t r) : len r.st = len s :=
  kept_len hS (e := .rule i) (by show quietRules.contains i = true; simpa using hi) h

theorem rawLine_nil {st : Text} {s : σ} {r : Res σ} (h : Eval grammar S (.rule R.DelimitedBlockRawLine) st s [] r) : r.rest = none :=
  yields_rule (yields_act (yields_scope (never_seq never_NotEOF))) st s r h

theorem rawLine (hS : BlockCode S len log) {st : Text} {s : σ} {t : Text} {r : Res σ} (h0 : t ≠ [])
    (h : Eval grammar S (.rule R.DelimitedBlockRawLine) st s t r) :
    ∃ s', r = .ok s' (afterLine t) ∧ len s' = len s ∧ log s' = log s ++ [firstLine t] := by
  have hy : Yields grammar S (.scope (.seq (.rule R.NotEOF) (.seq (.rule R.AnyChars) (.rule R.EOL)))) t (some (afterLine t)) := by
    cases t with
    | nil => exact absurd rfl h0
    | cons c t => exact yields_scope (yields_seq yields_NotEOF (yields_seq yields_AnyChars (yields_EOL.to (eol_after _))))
  have h := eval_rule.mp h
  rcases eval_act.mp h with ⟨s1, h1, rfl⟩ | ⟨s1, u, h1, rfl⟩
  · cases hy _ _ _ h1
  · cases hy _ _ _ h1
    have k := kept hS (by decide +kernel) h1
    exact ⟨_, rfl, (hS.act_len _ _ _ _).trans k.1, by rw [hS.line]; exact congrArg (· ++ _) k.2⟩

/-- How a rule closes the block: on the lines that do, and nothing else than lines matter. -/
structure Ends (S : Sem σ) (len : σ → Nat) (fin : Nat) (n : Nat) (close : Text → Bool) : Prop where
  quiet : fin ∈ quietRules
  line : ∀ st s t r, len s = n → t ≠ [] → Eval grammar S (.rule fin) st s t r → r.rest = if close (firstLine t) then some (afterLine t) else none
  nil : ∀ st s r, Eval grammar S (.rule fin) st s [] r → r.rest = none ∨ r.rest = some []

/-- The lines of the content (`XBlockContent`, parser.peg:830-1095). -/
theorem content_lines (hS : BlockCode S len log) {fin n id : Nat} {close : Text → Bool} (hf : Ends S len fin n close) (hid : id ≠ 138) :
    ∀ (m : Nat) (t : Text), t.length = m → ∀ (st : Text) (s : σ) (r : Res σ), len s = n →
      Eval grammar S (.star (.act id (.scope (.seq (.notP (.rule fin)) (.rule R.DelimitedBlockRawLine))))) st s t r →
      ∃ s' v, r = .ok s' v ∧ len s' = n ∧ log s' = log s ++ content close (splits t) ∧
        splits v = (splits t).dropWhile (fun l => !close l.1) := by
  intro m
  induction m using Nat.strongRecOn with
  | ind m ih =>
    intro t hm st s r hn h
    -- one line
    have step : ∀ st s r, len s = n → Eval grammar S (.act id (.scope (.seq (.notP (.rule fin)) (.rule R.DelimitedBlockRawLine)))) st s t r →
        if t ≠ [] ∧ close (firstLine t) = false then ∃ s', r = .ok s' (afterLine t) ∧ len s' = n ∧ log s' = log s ++ [firstLine t]
        else ∃ s', r = .fail s' ∧ len s' = n ∧ log s' = log s := by
      intro st s r hn h
      rcases eval_act.mp h with ⟨s1, h1, rfl⟩ | ⟨s1, u, h1, rfl⟩
      · rcases eval_scope.mp h1 with ⟨s2, h2, e⟩ | ⟨s2, u, _, e⟩
        · cases e
          rcases eval_seq.mp h2 with ⟨s3, h3, e⟩ | ⟨s3, u, h3, h4⟩
          · cases e
            rcases eval_notP.mp h3 with ⟨s4, _, e⟩ | ⟨s4, u, h4, e⟩
            · cases e
            · cases e
              have k := kept_rule hS hf.quiet h4
              have hk : len (S.restore s (S.restore s s4)) = n ∧ log (S.restore s (S.restore s s4)) = log s := by
                constructor
                · rw [(hS.restore _ _).1, (hS.restore _ _).1]; exact k.1.trans hn
                · exact (hS.restore _ _).2
              rw [if_neg]
              · exact ⟨_, rfl, hk⟩
              · rintro ⟨h0, hcl⟩
                have := hf.line _ _ _ _ hn h0 h4
                rw [hcl] at this
                cases this
          · rcases eval_notP.mp h3 with ⟨s4, h5, e⟩ | ⟨s4, u', _, e⟩
            · cases e
              by_cases h0 : t = []
              · subst h0
                rw [if_neg (fun h => h.1 rfl)]
                refine ⟨_, rfl, ?_, (hS.restore _ _).2⟩
                -- the line fails at once
                have h4 := eval_rule.mp h4
                rcases eval_act.mp h4 with ⟨s6, h6, e⟩ | ⟨s6, u, h6, e⟩
                · cases e
                  have k := kept hS (by decide +kernel) h6
                  have k5 := kept_rule hS hf.quiet h5
                  rw [(hS.restore _ _).1]
                  refine k.1.trans ?_
                  rw [(hS.restore _ _).1]
                  exact k5.1.trans hn
                · cases e
              · obtain ⟨_, e, _⟩ := rawLine hS h0 h4
                cases e
            · cases e
        · cases e
      · rcases eval_scope.mp h1 with ⟨s2, h2, e⟩ | ⟨s2, u', h2, e⟩
        · cases e
        · cases e
          rcases eval_seq.mp h2 with ⟨s3, h3, e⟩ | ⟨s3, u, h3, h4⟩
          · cases e
          · rcases eval_notP.mp h3 with ⟨s4, h5, e⟩ | ⟨s4, u', _, e⟩
            · cases e
              by_cases h0 : t = []
              · subst h0
                cases rawLine_nil h4
              · obtain ⟨s5, e, k1, k2⟩ := rawLine hS h0 h4
                cases e
                have k5 := kept_rule hS hf.quiet h5
                have hcl := hf.line _ _ _ _ hn h0 h5
                cases hb : close (firstLine t) with
                | true => rw [hb] at hcl; cases hcl
                | false =>
                  rw [if_pos ⟨h0, rfl⟩]
                  refine ⟨_, rfl, ?_, ?_⟩
                  · rw [hS.act_len, k1, (hS.restore _ _).1]; exact k5.1.trans hn
                  · rw [hS.act_log _ _ _ _ hid, k2, (hS.restore _ _).2]
            · cases e
    rcases eval_star.mp h with ⟨s1, h1, rfl⟩ | ⟨s1, u, h1, h2⟩
    · have := step _ _ _ hn h1
      split at this
      · obtain ⟨_, e, _⟩ := this; cases e
      · rename_i hc
        obtain ⟨_, e, k1, k2⟩ := this
        cases e
        refine ⟨_, t, rfl, k1, ?_, ?_⟩
        · rw [k2]
          by_cases h0 : t = []
          · subst h0; simp [content, splits]
          · obtain ⟨e, _, _, _, h4⟩ := splits_cons h0
            have hcl : close (firstLine t) = true := by
              cases hb : close (firstLine t) with
              | true => rfl
              | false => exact absurd ⟨h0, hb⟩ hc
            simp [content, h4, hcl]
        · by_cases h0 : t = []
          · subst h0; rfl
          · obtain ⟨e, _, _, _, h4⟩ := splits_cons h0
            have hcl : close (firstLine t) = true := by
              cases hb : close (firstLine t) with
              | true => rfl
              | false => exact absurd ⟨h0, hb⟩ hc
            simp [h4, hcl]
    · have := step _ _ _ hn h1
      split at this
      · rename_i hc
        obtain ⟨_, e, k1, k2⟩ := this
        cases e
        obtain ⟨s2, v, rfl, k3, k4, k5⟩ := ih _ (hm ▸ afterLine_lt hc.1) _ rfl _ _ _ k1 h2
        obtain ⟨e, _, _, _, h4⟩ := splits_cons hc.1
        refine ⟨_, v, rfl, k3, ?_, ?_⟩
        · rw [k4, k2, h4]; simp [content, hc.2]
        · rw [k5, h4]; simp [hc.2]
      · obtain ⟨_, e, _⟩ := this; cases e

/-- The content and the end of the block. -/
theorem content_end (hS : BlockCode S len log) {cont fin n id : Nat} {close : Text → Bool} (hf : Ends S len fin n close) (hid : id ≠ 138)
    (hG : grammar cont = .star (.act id (.scope (.seq (.notP (.rule fin)) (.rule R.DelimitedBlockRawLine)))))
    {st : Text} {s : σ} {t : Text} {r : Res σ} (hn : len s = n)
    (h : Eval grammar S (.seq (.rule cont) (.opt (.rule fin))) st s t r) :
    ∃ s', r = .ok s' (rest close (splits t)) ∧ log s' = log s ++ content close (splits t) := by
  have hc : ∀ r, Eval grammar S (.rule cont) st s t r → ∃ s' v, r = .ok s' v ∧ len s' = n ∧ log s' = log s ++ content close (splits t) ∧
      splits v = (splits t).dropWhile (fun l => !close l.1) := by
    intro r h
    have h := eval_rule.mp h
    rw [hG] at h
    exact content_lines hS hf hid _ t rfl _ _ _ hn h
  rcases eval_seq.mp h with ⟨s1, h1, rfl⟩ | ⟨s1, v, h1, h2⟩
  · obtain ⟨_, _, e, _⟩ := hc _ h1; cases e
  · obtain ⟨_, _, e, k1, k2, k3⟩ := hc _ h1
    cases e
    have hrest : ∀ r, Eval grammar S (.rule fin) st s1 v r → r.rest = some (rest close (splits t)) ∨
        (r.rest = none ∧ v = rest close (splits t)) := by
      intro r h
      unfold rest
      rw [← k3]
      by_cases h0 : v = []
      · subst h0
        rcases hf.nil _ _ _ h with h | h
        · exact .inr ⟨h, rfl⟩
        · exact .inl h
      · obtain ⟨e, _, _, _, h4⟩ := splits_cons h0
        have hcl : close (firstLine v) = true := by
          have := List.head?_dropWhile_not (fun l : Text × Text => !close l.1) (splits t)
          rw [← k3, h4] at this
          simpa using this
        have := hf.line _ _ _ _ k1 h0 h
        rw [if_pos hcl] at this
        rw [h4, List.tail_cons, joins_splits]
        exact .inl this
    rcases eval_opt.mp h2 with ⟨s2, h3, rfl⟩ | ⟨s2, u, h3, rfl⟩
    · have k := kept_rule hS hf.quiet h3
      rcases hrest _ h3 with h | ⟨_, h⟩
      · cases h
      · subst h; exact ⟨_, rfl, k.2.trans k2⟩
    · have k := kept_rule hS hf.quiet h3
      rcases hrest _ h3 with h | ⟨h, _⟩
      · cases h; exact ⟨_, rfl, k.2.trans k2⟩
      · cases h

/-- What a rule does on a text whose first line opens a block that the given lines close. -/
def Outcome (log : σ → List Text) (s : σ) (t : Text) (f : Option (Text → Bool)) (r : Res σ) : Prop :=
  match f with
  | none => ∃ s', r = .fail s'
  | some close => ∃ s', r = .ok s' (rest close (splits (afterLine t))) ∧ log s' = log s ++ content close (splits (afterLine t))

theorem leading_line {c : Char} (hc : isEol c = false) (l e : Text) (he : ∀ x ∈ e, isEol x = true) : leading c (l ++ e) = leading c l := by
  have h0 : e.takeWhile (· == c) = [] := by
    cases e with
    | nil => rfl
    | cons x e =>
      refine List.takeWhile_cons_of_neg ?_
      have := he x List.mem_cons_self
      simp only [beq_iff_eq]
      rintro rfl
      rw [hc] at this
      cases this
  unfold leading
  rw [List.takeWhile_append]
  split
  · rename_i h
    rw [h0, List.append_nil, (List.takeWhile_prefix _).eq_of_length h]
  · rfl

theorem delimLen_some {c : Char} {k n : Nat} {l : Text} (h : delimLen c k l = some n) : n = leading c l := by
  unfold delimLen at h
  split at h
  · cases h; rfl
  · cases h

theorem nil_end {fin : Nat} {st : Text} {s : σ} {r : Res σ} (h : Eval grammar S (.rule fin) st s [] r) : r.rest = none ∨ r.rest = some [] := by
  cases r with
  | fail s' => exact .inl rfl
  | ok s' u =>
    right
    have : u <:+ [] := h.suffix
    rw [List.suffix_nil.mp this]
    rfl

/-- The rules of a block whose delimiters have the same length (parser.peg:839-1095). -/
structure SizedRules (c : Char) (k block start cont fin delim set same a b d d' : Nat) : Prop where
  hblock : grammar block = .act a (.scope (.seq (.rule start) (.seq (.pred set) (.seq (.rule cont) (.opt (.rule fin))))))
  hstart : grammar start = .rule delim
  hcont : grammar cont = .star (.act b (.scope (.seq (.notP (.rule fin)) (.rule R.DelimitedBlockRawLine))))
  hfin : grammar fin = .alt (.scope (.seq (.rule delim) (.pred same))) (.rule R.EOF)
  hdelim : grammar delim = .act d (.scope (.seq (.act d' (.scope (.seq (.lit (List.replicate k c)) (.star (.lit [c])))))
      (.seq (.star (.rule R.Space)) (.rule R.EOL))))
  hset : (set, c) ∈ setters
  hsame : (same, c) ∈ matchers
  hquiet : fin ∈ quietRules ∧ start ∈ quietRules ∧ delim ∈ quietRules
  hids : a ≠ 138 ∧ b ≠ 138
  hchar : c ≠ '\uFFFD' ∧ isEol c = false

theorem sized_end (hS : LenCode S len) {c : Char} {k block start cont fin delim set same a b d d' : Nat}
    (hR : SizedRules c k block start cont fin delim set same a b d d') (n : Nat) :
    Ends S len fin n (fun m => delimLen c k m == some n) where
  quiet := hR.hquiet.1
  line st s t r hn h0 h := by
    have h := eval_rule.mp h
    rw [hR.hfin] at h
    have hd := yields_delimiter (S := S) hR.hchar.1 hR.hchar.2 hR.hdelim t
    obtain ⟨e, ht, he, _, _⟩ := splits_cons h0
    have heof : Never grammar S (.rule R.EOF) t := by
      cases t with
      | nil => exact absurd rfl h0
      | cons c t => exact never_EOF
    have hp : ∀ s, (S.pred same s t (afterLine t)).1 = (len s == leading c (firstLine t)) := by
      intro s
      have := hS.same _ hR.hsame s (firstLine t ++ e) (afterLine t)
      rw [List.append_assoc, ← ht] at this
      rw [this, leading_line hR.hchar.2 _ _ he]
    have hfirst : ∀ r, Eval grammar S (.scope (.seq (.rule delim) (.pred same))) t s t r →
        r.rest = if (delimLen c k (firstLine t) == some n) then some (afterLine t) else none := by
      intro r h
      rcases hD : delimLen c k (firstLine t) with _ | m
      · rw [hD] at hd
        exact yields_scope (never_seq hd) _ _ _ h
      · rw [hD] at hd
        have hm := delimLen_some hD
        rcases eval_scope.mp h with ⟨s1, h1, rfl⟩ | ⟨s1, u, h1, rfl⟩
        all_goals
          rcases eval_seq.mp h1 with ⟨s2, h2, e⟩ | ⟨s2, u, h2, h3⟩
          · cases hd _ _ _ h2
          · cases hd _ _ _ h2
            have k2 : len s2 = len s := kept_rule_len hS hR.hquiet.2.2 h2
            have hp := hp s2
            have h3 := eval_pred.mp h3
            rcases hq : S.pred same s2 t (afterLine t) with ⟨q, s3⟩
            rw [hq] at hp h3
            dsimp only at hp
            rw [k2, hn, ← hm] at hp
            by_cases hnm : m = n
            · subst hnm
              rw [beq_self_eq_true] at hp
              subst hp
              cases h3 <;> simp [Res.rest]
            · have : (n == m) = false := by simpa using Ne.symm hnm
              rw [this] at hp
              subst hp
              cases h3 <;> simp [Res.rest, hnm]
    rcases eval_alt.mp h with ⟨s1, h1, h2⟩ | ⟨s1, u, h1, rfl⟩
    · rw [← hfirst _ h1]
      exact heof _ _ _ h2
    · rw [← hfirst _ h1]
  nil st s r h := nil_end h

/-- A block whose delimiters have the same length. -/
theorem sized_block (hS : BlockCode S len log) {c : Char} {k block start cont fin delim set same a b d d' : Nat}
    (hR : SizedRules c k block start cont fin delim set same a b d d') {st : Text} {s : σ} {t : Text} {r : Res σ} (h0 : t ≠ [])
    (h : Eval grammar S (.rule block) st s t r) : Outcome log s t (sized c k (firstLine t)) r := by
  have h := eval_rule.mp h
  rw [hR.hblock] at h
  obtain ⟨e, ht, he, _, _⟩ := splits_cons h0
  have hd : Yields grammar S (.rule start) t (if (delimLen c k (firstLine t)).isSome then some (afterLine t) else none) := by
    refine yields_rule ?_
    rw [hR.hstart]
    exact yields_delimiter (S := S) hR.hchar.1 hR.hchar.2 hR.hdelim t
  unfold sized
  rcases hD : delimLen c k (firstLine t) with _ | n
  · rw [hD] at hd
    have := yields_act (id := a) (yields_scope (never_seq hd)) _ _ _ h
    cases r with
    | fail s' => exact ⟨s', rfl⟩
    | ok s' u => cases this
  · rw [hD] at hd
    have hn := delimLen_some hD
    have hseq : ∀ r, Eval grammar S (.seq (.rule start) (.seq (.pred set) (.seq (.rule cont) (.opt (.rule fin))))) t s t r →
        ∃ s', r = .ok s' (rest (fun m => delimLen c k m == some n) (splits (afterLine t))) ∧
          log s' = log s ++ content (fun m => delimLen c k m == some n) (splits (afterLine t)) := by
      intro r h
      rcases eval_seq.mp h with ⟨s1, h1, rfl⟩ | ⟨s1, v, h1, h2⟩
      · cases hd _ _ _ h1
      · cases hd _ _ _ h1
        have k1 := kept_rule hS hR.hquiet.2.1 h1
        have hp := hS.set _ hR.hset s1 (firstLine t ++ e) (afterLine t)
        rw [List.append_assoc, ← ht, leading_line hR.hchar.2 _ _ he, ← hn] at hp
        have hl := hS.pred_log set s1 t (afterLine t)
        rcases hq : S.pred set s1 t (afterLine t) with ⟨q, s3⟩
        rw [hq] at hp hl
        obtain ⟨hp1, hp2⟩ := hp
        dsimp only at hp1 hp2 hl
        subst hp1
        rcases eval_seq.mp h2 with ⟨s2, h3, e⟩ | ⟨s2, v, h3, h4⟩
        · have := eval_pred.mp h3
          rw [hq] at this; cases this
        · have := eval_pred.mp h3
          rw [hq] at this; cases this
          obtain ⟨s', e1, e2⟩ := content_end hS (sized_end hS.toLenCode hR n) hR.hids.2 hR.hcont hp2 h4
          exact ⟨s', e1, by rw [e2, hl]; exact congrArg (· ++ _) k1.2⟩
    rcases eval_act.mp h with ⟨s1, h1, rfl⟩ | ⟨s1, u, h1, rfl⟩
    · rcases eval_scope.mp h1 with ⟨s2, h2, e⟩ | ⟨s2, v, h2, e⟩
      · obtain ⟨_, e, _⟩ := hseq _ h2; cases e
      · cases e
    · rcases eval_scope.mp h1 with ⟨s2, h2, e⟩ | ⟨s2, v, h2, e⟩
      · cases e
      · cases e
        obtain ⟨_, e1, e2⟩ := hseq _ h2
        cases e1
        exact ⟨_, rfl, by rw [hS.act_log _ _ _ _ hR.hids.1]; exact e2⟩

/-- The rules of a block whose delimiters do not depend on the one that opens it (comments, open blocks, code). -/
structure PlainRules (block start cont fin a b : Nat) : Prop where
  hblock : grammar block = .act a (.scope (.seq (.rule start) (.seq (.rule cont) (.opt (.rule fin)))))
  hcont : grammar cont = .star (.act b (.scope (.seq (.notP (.rule fin)) (.rule R.DelimitedBlockRawLine))))
  hquiet : start ∈ quietRules
  hids : a ≠ 138 ∧ b ≠ 138

theorem plain_block (hS : BlockCode S len log) {block start cont fin a b : Nat} (hR : PlainRules block start cont fin a b) {opens close : Text → Bool}
    (hstart : ∀ t, Yields grammar S (.rule start) t (if opens (firstLine t) then some (afterLine t) else none))
    (hend : ∀ n, Ends S len fin n close) {st : Text} {s : σ} {t : Text} {r : Res σ}
    (h : Eval grammar S (.rule block) st s t r) : Outcome log s t (if opens (firstLine t) then some close else none) r := by
  have h := eval_rule.mp h
  rw [hR.hblock] at h
  have hd := hstart t
  cases hD : opens (firstLine t) with
  | false =>
    rw [hD] at hd
    have := yields_act (id := a) (yields_scope (never_seq hd)) _ _ _ h
    cases r with
    | fail s' => exact ⟨s', rfl⟩
    | ok s' u => cases this
  | true =>
    rw [hD] at hd
    have hseq : ∀ r, Eval grammar S (.seq (.rule start) (.seq (.rule cont) (.opt (.rule fin)))) t s t r →
        ∃ s', r = .ok s' (rest close (splits (afterLine t))) ∧ log s' = log s ++ content close (splits (afterLine t)) := by
      intro r h
      rcases eval_seq.mp h with ⟨s1, h1, rfl⟩ | ⟨s1, v, h1, h2⟩
      · cases hd _ _ _ h1
      · cases hd _ _ _ h1
        have k1 := kept_rule hS hR.hquiet h1
        obtain ⟨s', e1, e2⟩ := content_end hS (hend (len s1)) hR.hids.2 hR.hcont rfl h2
        exact ⟨s', e1, by rw [e2]; exact congrArg (· ++ _) k1.2⟩
    rcases eval_act.mp h with ⟨s1, h1, rfl⟩ | ⟨s1, u, h1, rfl⟩
    · rcases eval_scope.mp h1 with ⟨s2, h2, e⟩ | ⟨s2, v, h2, e⟩
      · obtain ⟨_, e, _⟩ := hseq _ h2; cases e
      · cases e
    · rcases eval_scope.mp h1 with ⟨s2, h2, e⟩ | ⟨s2, v, h2, e⟩
      · cases e
      · cases e
        obtain ⟨_, e1, e2⟩ := hseq _ h2
        cases e1
        exact ⟨_, rfl, by rw [hS.act_log _ _ _ _ hR.hids.1]; exact e2⟩

theorem plain_end {fin delim : Nat} (hq : fin ∈ quietRules) (hG : grammar fin = .alt (.rule delim) (.rule R.EOF)) {close : Text → Bool}
    (hd : ∀ t, Yields grammar S (.rule delim) t (if close (firstLine t) then some (afterLine t) else none)) (n : Nat) : Ends S len fin n close where
  quiet := hq
  line st s t r _ h0 h := by
    have h := eval_rule.mp h
    rw [hG] at h
    have heof : Never grammar S (.rule R.EOF) t := by
      cases t with
      | nil => exact absurd rfl h0
      | cons c t => exact never_EOF
    have hd := hd t
    cases hD : close (firstLine t) with
    | true => rw [hD] at hd; exact yields_alt_left hd _ _ _ h
    | false => rw [hD] at hd; exact yields_alt_right hd heof _ _ _ h
  nil st s r h := nil_end h

/-! ### The kinds of blocks -/

theorem example_rules : SizedRules '=' 4 R.ExampleBlock R.ExampleBlockStartDelimiter R.ExampleBlockContent R.ExampleBlockEndDelimiter R.ExampleBlockDelimiter 141 143 142 144 121 120 :=
  ⟨rfl, rfl, rfl, rfl, rfl, by decide, by decide, by decide, by decide, by decide⟩
theorem fenced_rules : SizedRules '`' 3 R.FencedBlock R.FencedBlockStartDelimiter R.FencedBlockContent R.FencedBlockEndDelimiter R.FencedBlockDelimiter 145 147 146 148 123 122 :=
  ⟨rfl, rfl, rfl, rfl, rfl, by decide, by decide, by decide, by decide, by decide⟩
theorem listing_rules : SizedRules '-' 4 R.ListingBlock R.ListingBlockStartDelimiter R.ListingBlockContent R.ListingBlockEndDelimiter R.ListingBlockDelimiter 149 151 150 152 127 126 :=
  ⟨rfl, rfl, rfl, rfl, rfl, by decide, by decide, by decide, by decide, by decide⟩
theorem literal_rules : SizedRules '.' 4 R.LiteralBlock R.LiteralBlockStartDelimiter R.LiteralBlockContent R.LiteralBlockEndDelimiter R.LiteralBlockDelimiter 153 155 154 156 131 130 :=
  ⟨rfl, rfl, rfl, rfl, rfl, by decide, by decide, by decide, by decide, by decide⟩
theorem passthrough_rules : SizedRules '+' 4 R.PassthroughBlock R.PassthroughBlockStartDelimiter R.PassthroughBlockContent R.PassthroughBlockEndDelimiter R.PassthroughBlockDelimiter 164 166 165 167 133 132 :=
  ⟨rfl, rfl, rfl, rfl, rfl, by decide, by decide, by decide, by decide, by decide⟩
theorem quote_rules : SizedRules '_' 4 R.QuoteBlock R.QuoteBlockStartDelimiter R.QuoteBlockContent R.QuoteBlockEndDelimiter R.QuoteBlockDelimiter 168 170 169 171 135 134 :=
  ⟨rfl, rfl, rfl, rfl, rfl, by decide, by decide, by decide, by decide, by decide⟩
theorem sidebar_rules : SizedRules '*' 4 R.SidebarBlock R.SidebarBlockStartDelimiter R.SidebarBlockContent R.SidebarBlockEndDelimiter R.SidebarBlockDelimiter 172 174 173 175 137 136 :=
  ⟨rfl, rfl, rfl, rfl, rfl, by decide, by decide, by decide, by decide, by decide⟩

theorem comment_block (hS : BlockCode S len log) {st : Text} {s : σ} {t : Text} {r : Res σ}
    (h : Eval grammar S (.rule R.CommentBlock) st s t r) : Outcome log s t (comment (firstLine t)) r := by
  have hd : ∀ t, Yields grammar S (.rule R.CommentBlockDelimiter) t (if (delimLen '/' 4 (firstLine t)).isSome then some (afterLine t) else none) :=
    fun t => yields_delimiter (a := 119) (b := 118) (by decide) (by decide) rfl t
  refine plain_block (start := R.CommentBlockStartDelimiter) (cont := R.CommentBlockContent) (fin := R.CommentBlockEndDelimiter) (a := 139) (b := 140) hS
    ⟨rfl, rfl, by decide, by decide⟩ (opens := fun l => (delimLen '/' 4 l).isSome) (close := fun l => (delimLen '/' 4 l).isSome) ?_ ?_ h
  · exact fun t => yields_rule (hd t)
  · exact fun n => plain_end (by decide) rfl hd n

theorem yields_scope' {e : Exp} {t : Text} {o : Option Text} (h : Yields grammar S e t o) : Yields grammar S (.scope e) t o := yields_scope h

theorem open_delimiter : ∀ t, Yields grammar S (.rule R.OpenBlockDelimiter) t (if exactly '-' 2 (firstLine t) then some (afterLine t) else none) := by
  intro t
  refine yields_rule (yields_act (yields_scope ?_))
  have := yields_exactly (S := S) (c := '-') (k := 2) (by decide) (by decide) t
  intro st s r h
  rcases eval_seq.mp h with ⟨s1, h1, rfl⟩ | ⟨s1, v, h1, h2⟩
  · rcases eval_act.mp h1 with ⟨s2, h2, e⟩ | ⟨s2, u, h2, e⟩
    · cases e
      exact this st s _ (eval_seq.mpr (.inl ⟨_, h2, rfl⟩))
    · cases e
  · rcases eval_act.mp h1 with ⟨s2, h3, e⟩ | ⟨s2, u, h3, e⟩
    · cases e
    · cases e
      have hl := eval_lit.mp h3
      rcases hm : matchLit ['-', '-'] t with _ | w
      · rw [hm] at hl; cases hl
      · rw [hm] at hl
        cases hl
        have hlr := matchLit_replicate (c := '-') (by decide) 2 t
        have hy := yields_blanks_eol (S := S) v _ _ _ h2
        have h5 : ∀ r, Eval grammar S (.seq (.star (.rule R.Space)) (.rule R.EOL)) st s v r → r.rest =
            if exactly '-' 2 (firstLine t) then some (afterLine t) else none :=
          fun r hr => this st s _ (eval_seq.mpr (.inr ⟨_, _, h3, hr⟩))
        rw [hy]
        have hex : matchLit (List.replicate 2 '-') t = some v := hm
        rw [hlr] at hex
        by_cases hk : 2 ≤ leading '-' t
        · rw [if_pos hk] at hex
          cases hex
          obtain ⟨e1, e2, e3⟩ := take_firstLine (c := '-') (by decide) 2 t hk
          rw [e3, ← e2]
          unfold exactly
          simp [e1]
        · rw [if_neg hk] at hex; cases hex

theorem open_block (hS : BlockCode S len log) {st : Text} {s : σ} {t : Text} {r : Res σ}
    (h : Eval grammar S (.rule R.OpenBlock) st s t r) : Outcome log s t (openBlock (firstLine t)) r := by
  have hd := open_delimiter (S := S)
  refine plain_block (start := R.OpenBlockStartDelimiter) (cont := R.OpenBlockContent) (fin := R.OpenBlockEndDelimiter) (a := 162) (b := 163) hS
    ⟨rfl, rfl, by decide, by decide⟩ (opens := exactly '-' 2) (close := exactly '-' 2) ?_ ?_ h
  · exact fun t => yields_rule (hd t)
  · exact fun n => plain_end (by decide) rfl hd n

theorem has_lang (x : Char) : (Cls.mk true ['\r', '\n', '`', ' '] [] false false).has S.letter S.number x = isLang x := by
  simp only [Cls.has, isLang, List.contains_cons, List.contains_nil, List.any_nil, Bool.or_false, Bool.false_and]
  cases x == '\r' <;> cases x == '\n' <;> cases x == '`' <;> cases x == ' ' <;> rfl

theorem yields_lang (t : Text) : Yields grammar S (.rule R.Language) t (if t.head?.any isLang then some (t.dropWhile isLang) else none) := by
  refine yields_rule (yields_act ?_)
  cases t with
  | nil => exact never_plus yields_cls_nil
  | cons x t =>
    cases hx : isLang x with
    | true =>
      refine (yields_plus_step (yields_cls ((has_lang x).trans hx)) (yields_star_cls t)).to ?_
      simp only [List.head?_cons, Option.any_some, hx, if_true, Option.some.injEq]
      rw [List.dropWhile_cons_of_pos hx]
      congr 1
      funext y
      exact has_lang y
    | false =>
      refine (never_plus (yields_cls_no ((has_lang x).trans hx))).to ?_
      simp [hx]

theorem head_any {p : Char → Bool} (hp : ∀ c, p c = true → isEol c = false) (t : Text) : (firstLine t).head?.any p = t.head?.any p := by
  cases t with
  | nil => rfl
  | cons c t =>
    cases hc : isEol c with
    | true =>
      rw [firstLine_eol t hc]
      cases h : p c with
      | true => rw [hp c h] at hc; cases hc
      | false => simp [h]
    | false => rw [firstLine_cons t hc]; rfl

theorem isLang_line (c : Char) (h : isLang c = true) : isEol c = false := by
  simp only [isLang, Bool.not_eq_true', Bool.or_eq_false_iff] at h
  simp [isEol, h.1.1.1, h.1.1.2]

theorem code_block (hS : BlockCode S len log) {st : Text} {s : σ} {t : Text} {r : Res σ}
    (h : Eval grammar S (.rule R.MarkdownCodeBlock) st s t r) : Outcome log s t (code (firstLine t)) r := by
  have hrep : "```".toList = List.replicate 3 '`' := by decide
  have hout := plain_block (start := R.MarkdownCodeBlockStartDelimiter) (cont := R.MarkdownCodeBlockContent) (fin := R.MarkdownCodeBlockEndDelimiter)
    (a := 157) (b := 158) hS ⟨rfl, rfl, by decide, by decide⟩
    (opens := fun l => decide (l.take 3 = "```".toList ∧ ((l.drop 3).head?.any isLang) ∧ ((l.drop 3).dropWhile isLang).all isBlank))
    (close := exactly '`' 3) ?_ ?_ h
  · unfold code
    simpa only [decide_eq_true_eq] using hout
  · intro t
    refine yields_rule (yields_rule (yields_act (yields_scope ?_)))
    have hl := matchLit_replicate (c := '`') (by decide) 3 t
    by_cases hk : 3 ≤ leading '`' t
    · rw [if_pos hk] at hl
      obtain ⟨h1, h2, h3⟩ := take_firstLine (c := '`') (by decide) 3 t hk
      rw [← hrep] at h1
      refine yields_seq (yields_lit.to hl) ?_
      have hd := firstLine_dropWhile isLang_line (t.drop 3)
      have hh := head_any isLang_line (t.drop 3)
      cases ha : (t.drop 3).head?.any isLang with
      | true =>
        refine yields_seq ((yields_lang _).to (by rw [ha]; rfl)) ((yields_blanks_eol _).to ?_)
        rw [hd.1, hd.2, h3, h2, hh, ha, h1]
        simp only [true_and, decide_eq_true_eq]
      | false =>
        refine (never_seq ((yields_lang _).to (by rw [ha]; rfl))).to ?_
        rw [h2, hh, ha, if_neg (by simp)]
    · rw [if_neg hk] at hl
      refine (never_seq (yields_lit.to hl)).to ?_
      have : ¬ (firstLine t).take 3 = "```".toList := fun h => hk (take_replicate (by decide) 3 t (hrep ▸ h))
      simp only [decide_eq_true_eq]
      rw [if_neg (fun h => this h.1)]
  · intro n
    refine ⟨by decide, fun st s t r _ _ h => ?_, fun st s r h => nil_end h⟩
    exact yields_rule (yields_scope (yields_exactly (c := '`') (k := 3) (by decide) (by decide) t)) _ _ _ h

theorem Outcome.restored (hS : BlockCode S len log) {s s1 : σ} {t : Text} {f : Option (Text → Bool)} {r : Res σ}
    (h : Outcome log (S.restore s s1) t f r) : Outcome log s t f r := by
  unfold Outcome at h ⊢
  rw [(hS.restore s s1).2] at h
  exact h

theorem outcome_alt (hS : BlockCode S len log) {a b : Exp} {f g : Option (Text → Bool)} {t : Text}
    (ha : ∀ st s r, Eval grammar S a st s t r → Outcome log s t f r)
    (hb : ∀ st s r, Eval grammar S b st s t r → Outcome log s t g r) :
    ∀ st s r, Eval grammar S (.alt a b) st s t r → Outcome log s t (f.or g) r := by
  intro st s r h
  rcases eval_alt.mp h with ⟨s1, h1, h2⟩ | ⟨s1, u, h1, rfl⟩
  · have := ha _ _ _ h1
    cases f with
    | none => exact (hb _ _ _ h2).restored hS
    | some close => obtain ⟨_, e, _⟩ := this; cases e
  · have := ha _ _ _ h1
    cases f with
    | none => obtain ⟨_, e⟩ := this; cases e
    | some close => exact this

theorem outcome_never (hS : BlockCode S len log) {a b : Exp} {f : Option (Text → Bool)} {t : Text}
    (ha : Never grammar S a t)
    (hb : ∀ st s r, Eval grammar S b st s t r → Outcome log s t f r) :
    ∀ st s r, Eval grammar S (.alt a b) st s t r → Outcome log s t f r := by
  intro st s r h
  rcases eval_alt.mp h with ⟨s1, h1, h2⟩ | ⟨s1, u, h1, rfl⟩
  · exact (hb _ _ _ h2).restored hS
  · cases ha _ _ _ h1

/-- An expression that consumes nothing, then one that fails. -/
theorem never_after {a b : Exp} {t : Text} (ha : ∀ st s s' u, Eval grammar S a st s t (.ok s' u) → u = t) (hb : Never grammar S b t) :
    Never grammar S (.seq a b) t := by
  intro st s r h
  rcases eval_seq.mp h with ⟨s1, h1, rfl⟩ | ⟨s1, v, h1, h2⟩
  · rfl
  · cases ha _ _ _ _ h1
    exact hb _ _ _ h2

theorem pred_stays {id : Nat} {st t : Text} {s s' : σ} {u : Text} (h : Eval grammar S (.pred id) st s t (.ok s' u)) : u = t := by
  have h := eval_pred.mp h
  rcases hp : S.pred id s st t with ⟨b, s2⟩
  rw [hp] at h
  cases b <;> cases h
  rfl

theorem notP_stays {e : Exp} {st t : Text} {s s' : σ} {u : Text} (h : Eval grammar S (.notP e) st s t (.ok s' u)) : u = t := by
  rcases eval_notP.mp h with ⟨_, _, e⟩ | ⟨_, _, _, e⟩ <;> cases e
  rfl

/-- The rule of delimited blocks, on texts that do not begin with `> `. -/
theorem delimited_block (hS : BlockCode S len log) {t : Text} (h0 : t ≠ []) (hq : matchLit ['>', ' '] t = none) :
    ∀ st s r, Eval grammar S (.rule R.DelimitedBlock) st s t r → Outcome log s t (closing (firstLine t)) r := by
  have hnq : Never grammar S (.rule R.MarkdownQuoteBlock) t :=
    yields_rule (yields_act (yields_scope (never_seq (yields_rule (yields_act (yields_scope
      (never_after (fun _ _ _ _ h => notP_stays h) (never_seq (yields_lit.to hq)))))))))
  intro st s r h
  refine outcome_alt hS (fun _ _ _ h => comment_block hS h) (outcome_alt hS (fun _ _ _ h => sized_block hS example_rules h0 h)
    (outcome_alt hS (fun _ _ _ h => code_block hS h) (outcome_alt hS (fun _ _ _ h => sized_block hS fenced_rules h0 h)
    (outcome_alt hS (fun _ _ _ h => sized_block hS listing_rules h0 h) (outcome_alt hS (fun _ _ _ h => sized_block hS literal_rules h0 h)
    (outcome_never hS hnq (outcome_alt hS (fun _ _ _ h => open_block hS h) (outcome_alt hS (fun _ _ _ h => sized_block hS passthrough_rules h0 h)
    (outcome_alt hS (fun _ _ _ h => sized_block hS quote_rules h0 h) (fun _ _ _ h => sized_block hS sidebar_rules h0 h))))))))))
    t s r (eval_rule.mp h)

/-! ### Blocks in a document -/

theorem starts_with {c : Char} {k : Nat} {t : Text} (he : isEol c = false) (h : k ≤ leading c (firstLine t)) : ∃ x, t = List.replicate k c ++ x := by
  rw [leading_firstLine he] at h
  refine ⟨t.drop k, ?_⟩
  have : t.take k = List.replicate k c := by
    unfold leading at h
    have hp := List.takeWhile_prefix (fun x => x == c) (l := t)
    have h1 : t.take k = (t.takeWhile (· == c)).take k := by
      obtain ⟨v, hv⟩ := hp
      conv => lhs; rw [← hv]
      rw [List.take_append_of_le_length h]
    rw [h1]
    refine List.eq_replicate_iff.mpr ⟨by simp; omega, fun x hx => ?_⟩
    have := List.all_eq_true.mp (List.all_takeWhile (p := (· == c)) (l := t)) x (List.mem_of_mem_take hx)
    simpa using this
  rw [← this, List.take_append_drop]

theorem delimLen_le {c : Char} {k n : Nat} {l : Text} (h : delimLen c k l = some n) : k ≤ leading c l ∧ (l.dropWhile (· == c)).all isBlank = true := by
  unfold delimLen at h
  split at h
  · assumption
  · cases h

theorem exactly_delim {c : Char} {k : Nat} {l : Text} (hb : isBlank c = false) (h : exactly c k l = true) : delimLen c k l = some k := by
  unfold exactly at h
  simp only [Bool.and_eq_true, beq_iff_eq] at h
  have e : l = List.replicate k c ++ l.drop k := by conv => lhs; rw [← List.take_append_drop k l, h.1]
  have hd : (l.drop k).takeWhile (· == c) = [] ∧ (l.drop k).dropWhile (· == c) = l.drop k := by
    cases hx : l.drop k with
    | nil => exact ⟨rfl, rfl⟩
    | cons x v =>
      have : isBlank x = true := List.all_eq_true.mp h.2 x (hx ▸ List.mem_cons_self)
      have hn : ¬ (x == c) = true := by
        rw [beq_iff_eq]; rintro rfl; rw [hb] at this; cases this
      exact ⟨List.takeWhile_cons_of_neg hn, List.dropWhile_cons_of_neg hn⟩
  have ha : ∀ x ∈ List.replicate k c, (x == c) = true := by intro x hx; simp [List.mem_replicate] at hx; simp [hx.2]
  have h1 : leading c l = k := by
    unfold leading
    rw [e, List.takeWhile_append_of_pos ha, hd.1]
    simp
  have h2 : l.dropWhile (· == c) = l.drop k := by
    conv => lhs; rw [e]
    rw [List.dropWhile_append_of_pos ha, hd.2]
  unfold delimLen
  rw [h1, h2, if_pos ⟨Nat.le_refl _, h.2⟩]

/-- After the characters of the delimiter: nothing, a blank, or the end of the line. -/
theorem after_delim {c : Char} (he : isEol c = false) {t : Text} (h : ((firstLine t).dropWhile (· == c)).all isBlank = true) :
    t.dropWhile (· == c) = [] ∨ ∃ x v, t.dropWhile (· == c) = x :: v ∧ (isBlank x = true ∨ isEol x = true) := by
  have hd := firstLine_dropWhile (p := (· == c)) (by intro x hx; simp at hx; rw [hx]; exact he) t
  rw [← hd.1] at h
  cases hx : t.dropWhile (· == c) with
  | nil => exact .inl rfl
  | cons x v =>
    refine .inr ⟨x, v, rfl, ?_⟩
    cases hc : isEol x with
    | true => exact .inr rfl
    | false =>
      rw [hx, firstLine_cons v hc] at h
      exact .inl (List.all_eq_true.mp h x List.mem_cons_self)

/-- `c` is a character of name of macro and `t` begins with some, and a blank or the end of the line: no macro. -/
theorem no_macro (hK : Follows S (fun _ _ => none)) {c : Char} (hc : c = '-' ∨ c = '_') {t : Text} (h : ((firstLine t).dropWhile (· == c)).all isBlank = true) :
    Never grammar S (.rule R.UserMacroBlock) t := by
  have he : isEol c = false := by rcases hc with rfl | rfl <;> rfl
  have hrest := after_delim he h
  refine yields_rule (yields_act (yields_scope ?_))
  cases t with
  | nil => exact never_seq (yields_rule (yields_act (never_plus yields_cls_nil)))
  | cons d t =>
    -- the name stops where the characters `c` do
    have hhas : ∀ x : Char, isBlank x = true ∨ isEol x = true → (Cls.mk false ['_', '-'] [] true true).has S.letter S.number x = false := by
      intro x hx
      have hx' : x = '\t' ∨ x = ' ' ∨ x = '\n' ∨ x = '\r' := by
        simp only [isBlank, isEol, Bool.or_eq_true, beq_iff_eq] at hx
        rcases hx with (h | h) | (h | h) <;> simp [h]
      have h1 := hK.letter x (by rcases hx' with rfl | rfl | rfl | rfl <;> decide)
      have h2 := hK.number x (by rcases hx' with rfl | rfl | rfl | rfl <;> decide)
      unfold Cls.has
      rw [h1, h2]
      rcases hx' with rfl | rfl | rfl | rfl <;> decide
    have hcc : (Cls.mk false ['_', '-'] [] true true).has S.letter S.number c = true := by
      unfold Cls.has
      rcases hc with rfl | rfl <;> simp
    have hdrop : ∀ t : Text, (t.dropWhile (· == c) = [] ∨ ∃ x v, t.dropWhile (· == c) = x :: v ∧ (isBlank x = true ∨ isEol x = true)) →
        t.dropWhile ((Cls.mk false ['_', '-'] [] true true).has S.letter S.number) = t.dropWhile (· == c) := by
      intro t
      induction t with
      | nil => intro _; rfl
      | cons d t ih =>
        intro h
        by_cases hd : d = c
        · have e1 : (d :: t).dropWhile (· == c) = t.dropWhile (· == c) := List.dropWhile_cons_of_pos (by simpa using hd)
          rw [e1] at h ⊢
          rw [List.dropWhile_cons_of_pos (hd ▸ hcc)]
          exact ih h
        · have e1 : (d :: t).dropWhile (· == c) = d :: t := List.dropWhile_cons_of_neg (by simpa using hd)
          rw [e1] at h ⊢
          rcases h with h | ⟨x, v, h, hx⟩
          · cases h
          · cases h
            exact List.dropWhile_cons_of_neg (by simp [hhas _ hx])
    by_cases hd : d = c
    · subst hd
      rw [List.dropWhile_cons_of_pos (by simp)] at hrest
      refine yields_seq (yields_rule (yields_act (yields_plus_step (yields_cls hcc) (yields_star_cls t)))) ?_
      rw [hdrop t hrest]
      refine never_after (fun _ _ _ _ h => pred_stays h) (never_seq (yields_lit.to ?_))
      rcases hrest with h | ⟨x, v, h, hx⟩
      · rw [h]; rfl
      · rw [h]
        have : x ≠ ':' := by
          rintro rfl
          simp [isBlank, isEol] at hx
        simp [matchLit, Ne.symm this]
    · rw [List.dropWhile_cons_of_neg (by simpa using hd)] at hrest
      refine never_seq (yields_rule (yields_act (never_plus (yields_cls_no ?_))))
      rcases hrest with h | ⟨x, v, h, hx⟩
      · cases h
      · cases h; exact hhas _ hx

/-- `=` characters, blanks, and the end of the line: no section. -/
theorem no_section {t : Text} (h : ((firstLine t).dropWhile (· == '=')).all isBlank = true) : Never grammar S (.rule R.Section) t := by
  have hd := firstLine_dropWhile (p := (· == '=')) (by intro x hx; simp at hx; rw [hx]; decide) t
  refine yields_rule (yields_act (yields_scope (never_after (fun _ _ _ _ h => pred_stays h) ?_)))
  cases t with
  | nil => exact never_seq (yields_act (never_plus (yields_lit.to rfl)))
  | cons d t =>
    by_cases hdc : d = '='
    · subst hdc
      refine yields_seq (yields_act (yields_plus_step (yields_lit.to (by simp [matchLit])) (yields_star_lit (by decide) t))) ?_
      refine never_after (fun _ _ _ _ h => pred_stays h) ?_
      have hl : (firstLine (t.dropWhile (· == '='))).all isBlank = true := by
        have h1 := hd.1
        rw [List.dropWhile_cons_of_pos (by simp)] at h1
        rw [h1]; exact h
      generalize t.dropWhile (· == '=') = w at hl
      cases w with
      | nil => exact never_seq (yields_rule (yields_act (never_plus yields_cls_nil)))
      | cons x w =>
        cases hx : isBlank x with
        | false => exact never_seq (yields_rule (yields_act (never_plus (yields_cls_no ((has_blank x).trans hx)))))
        | true =>
          have hxe : isEol x = false := by
            simp only [isBlank, Bool.or_eq_true, beq_iff_eq] at hx
            rcases hx with rfl | rfl <;> decide
          rw [firstLine_cons w hxe] at hl
          have hb : (Cls.mk false ['\t', ' '] [] false false).has S.letter S.number = isBlank := by
            funext y; exact has_blank y
          refine yields_seq (yields_rule (yields_act (yields_plus_step (yields_cls ((has_blank x).trans hx)) (yields_star_cls w)))) ?_
          rw [hb]
          have he : eol (w.dropWhile isBlank) = some (afterLine w) := by
            rw [eol_blanks, if_pos]
            rw [List.all_cons, Bool.and_eq_true] at hl
            exact hl.2
          refine never_seq (yields_rule (yields_act (yields_scope ?_)))
          refine yields_seq yields_state (never_plus (yields_rule (yields_act (yields_scope (never_seq (never_notP ?_))))))
          exact (yields_EOL.to he).sure
    · exact never_seq (yields_act (never_plus (yields_lit.to (by simp [matchLit, Ne.symm hdc]))))

/-- The rules tried before delimited blocks. -/
def before : List Nat := [R.BlockAttributes, R.ImageBlock, R.ShortcutParagraph, R.AttributeDeclaration, R.AttributeReset, R.BlankLine, R.DocumentHeader]

theorem before_fail : ∀ i ∈ before, ∀ p ∈ [List.replicate 4 '=', List.replicate 3 '`', List.replicate 4 '-', List.replicate 4 '.', List.replicate 4 '+', List.replicate 4 '_',
    List.replicate 4 '*', List.replicate 2 '-'], runO grammar (fun _ _ => none) 80 (.rule i) p p = some [.fail] := by decide +kernel

theorem section_fail : ∀ p ∈ [List.replicate 3 '`', List.replicate 4 '-', List.replicate 4 '.', List.replicate 4 '+', List.replicate 4 '_',
    List.replicate 4 '*', List.replicate 2 '-'], runO grammar (fun _ _ => none) 80 (.rule R.Section) p p = some [.fail] := by decide +kernel

theorem macro_fail : ∀ p ∈ [List.replicate 4 '=', List.replicate 3 '`', List.replicate 4 '.', List.replicate 4 '+', 
    List.replicate 4 '*'], runO grammar (fun _ _ => none) 80 (.rule R.UserMacroBlock) p p = some [.fail] := by decide +kernel

theorem quote_fail : ∀ p ∈ [List.replicate 4 '=', List.replicate 3 '`', List.replicate 4 '-', List.replicate 4 '.', List.replicate 4 '+', List.replicate 4 '_',
    List.replicate 4 '*', List.replicate 2 '-'], ∀ x, matchLit ['>', ' '] (p ++ x) = none := by
  intro p hp x
  simp only [List.mem_cons, List.not_mem_nil, or_false] at hp
  rcases hp with rfl | rfl | rfl | rfl | rfl | rfl | rfl | rfl <;> rfl

/-- What the alternatives before delimited blocks do. -/
theorem alternatives (hK : Follows S (fun _ _ => none)) {t : Text} {close : Text → Bool} (hc : comment (firstLine t) = none) (h : closing (firstLine t) = some close) :
    (∀ i ∈ before, Never grammar S (.rule i) t) ∧ Never grammar S (.rule R.Section) t ∧ Never grammar S (.rule R.UserMacroBlock) t ∧ matchLit ['>', ' '] t = none := by
  unfold closing at h
  rw [hc, Option.none_or] at h
  have main : ∀ p x, t = p ++ x → p ∈ [List.replicate 4 '=', List.replicate 3 '`', List.replicate 4 '-', List.replicate 4 '.', List.replicate 4 '+', List.replicate 4 '_',
      List.replicate 4 '*', List.replicate 2 '-'] →
      (p = List.replicate 4 '=' → ((firstLine t).dropWhile (· == '=')).all isBlank = true) →
      (p = List.replicate 4 '-' ∨ p = List.replicate 2 '-' → ((firstLine t).dropWhile (· == '-')).all isBlank = true) →
      (p = List.replicate 4 '_' → ((firstLine t).dropWhile (· == '_')).all isBlank = true) →
      (∀ i ∈ before, Never grammar S (.rule i) t) ∧ Never grammar S (.rule R.Section) t ∧ Never grammar S (.rule R.UserMacroBlock) t ∧
        matchLit ['>', ' '] t = none := by
    intro p x ht hp h1 h2 h3
    have e1 : ∀ i ∈ before, Never grammar S (.rule i) t := by
      intro i hi
      rw [ht]
      exact never_of_prefix hK x (before_fail i hi p hp)
    have e2 : matchLit ['>', ' '] t = none := by rw [ht]; exact quote_fail p hp x
    refine ⟨e1, ?_, ?_, e2⟩
    · by_cases hpe : p = List.replicate 4 '='
      · exact no_section (h1 hpe)
      · rw [ht]
        refine never_of_prefix hK x (section_fail p ?_)
        exact (List.mem_cons.mp hp).resolve_left hpe
    · by_cases hpm : p = List.replicate 4 '-' ∨ p = List.replicate 2 '-'
      · exact no_macro hK (.inl rfl) (h2 hpm)
      · by_cases hpu : p = List.replicate 4 '_'
        · exact no_macro hK (.inr rfl) (h3 hpu)
        · rw [ht]
          refine never_of_prefix hK x (macro_fail p ?_)
          simp only [List.mem_cons, List.not_mem_nil, or_false] at hp ⊢
          rcases hp with h | h | h | h | h | h | h | h
          · exact .inl h
          · exact .inr (.inl h)
          · exact absurd (.inl h) hpm
          · exact .inr (.inr (.inl h))
          · exact .inr (.inr (.inr (.inl h)))
          · exact absurd h hpu
          · exact .inr (.inr (.inr (.inr h)))
          · exact absurd (.inr h) hpm
  have sizedCase : ∀ (c : Char) (k : Nat), isEol c = false → (sized c k (firstLine t)).isSome →
      ∃ x, t = List.replicate k c ++ x ∧ ((firstLine t).dropWhile (· == c)).all isBlank = true := by
    intro c k he hs
    unfold sized at hs
    rcases hD : delimLen c k (firstLine t) with _ | n
    · rw [hD] at hs; cases hs
    · have := delimLen_le hD
      obtain ⟨x, hx⟩ := starts_with he this.1
      exact ⟨x, hx, this.2⟩
  cases h1 : sized '=' 4 (firstLine t) with
  | some f =>
    obtain ⟨x, hx, hb⟩ := sizedCase '=' 4 rfl (by rw [h1]; rfl)
    exact main _ x hx (by decide) (fun _ => hb) (fun h => absurd h (by decide)) (fun h => absurd h (by decide))
  | none =>
  rw [h1, Option.none_or] at h
  cases h2 : code (firstLine t) with
  | some f =>
    have h3 : (firstLine t).take 3 = List.replicate 3 '`' := by
      unfold code at h2
      split at h2
      · rename_i h; exact h.1
      · cases h2
    obtain ⟨x, hx⟩ := starts_with (c := '`') rfl (by rw [leading_firstLine (by decide)]; exact take_replicate (by decide) 3 t h3)
    exact main _ x hx (by decide) (fun h => absurd h (by decide)) (fun h => absurd h (by decide)) (fun h => absurd h (by decide))
  | none =>
  rw [h2, Option.none_or] at h
  cases h3 : sized '`' 3 (firstLine t) with
  | some f =>
    obtain ⟨x, hx, hb⟩ := sizedCase '`' 3 rfl (by rw [h3]; rfl)
    exact main _ x hx (by decide) (fun h => absurd h (by decide)) (fun h => absurd h (by decide)) (fun h => absurd h (by decide))
  | none =>
  rw [h3, Option.none_or] at h
  cases h4 : sized '-' 4 (firstLine t) with
  | some f =>
    obtain ⟨x, hx, hb⟩ := sizedCase '-' 4 rfl (by rw [h4]; rfl)
    exact main _ x hx (by decide) (fun h => absurd h (by decide)) (fun _ => hb) (fun h => absurd h (by decide))
  | none =>
  rw [h4, Option.none_or] at h
  cases h5 : sized '.' 4 (firstLine t) with
  | some f =>
    obtain ⟨x, hx, hb⟩ := sizedCase '.' 4 rfl (by rw [h5]; rfl)
    exact main _ x hx (by decide) (fun h => absurd h (by decide)) (fun h => absurd h (by decide)) (fun h => absurd h (by decide))
  | none =>
  rw [h5, Option.none_or] at h
  cases h6 : openBlock (firstLine t) with
  | some f =>
    have h7 : exactly '-' 2 (firstLine t) = true := by
      unfold openBlock at h6
      split at h6
      · assumption
      · cases h6
    have := delimLen_le (exactly_delim rfl h7)
    obtain ⟨x, hx⟩ := starts_with (c := '-') rfl this.1
    exact main _ x hx (by decide) (fun h => absurd h (by decide)) (fun _ => this.2) (fun h => absurd h (by decide))
  | none =>
  rw [h6, Option.none_or] at h
  cases h7 : sized '+' 4 (firstLine t) with
  | some f =>
    obtain ⟨x, hx, hb⟩ := sizedCase '+' 4 rfl (by rw [h7]; rfl)
    exact main _ x hx (by decide) (fun h => absurd h (by decide)) (fun h => absurd h (by decide)) (fun h => absurd h (by decide))
  | none =>
  rw [h7, Option.none_or] at h
  cases h8 : sized '_' 4 (firstLine t) with
  | some f =>
    obtain ⟨x, hx, hb⟩ := sizedCase '_' 4 rfl (by rw [h8]; rfl)
    exact main _ x hx (by decide) (fun h => absurd h (by decide)) (fun h => absurd h (by decide)) (fun _ => hb)
  | none =>
  rw [h8, Option.none_or] at h
  obtain ⟨x, hx, hb⟩ := sizedCase '*' 4 rfl (by rw [h]; rfl)
  exact main _ x hx (by decide) (fun h => absurd h (by decide)) (fun h => absurd h (by decide)) (fun h => absurd h (by decide))

/-- The choice of the element is the block. -/
theorem element_block (hS : BlockCode S len log) (hK : Follows S (fun _ _ => none)) {t : Text} {close : Text → Bool} (h0 : t ≠ []) (hc : comment (firstLine t) = none)
    (hcl : closing (firstLine t) = some close) : ∀ st s r, Eval grammar S element st s t r →
      ∃ s', r = .ok s' (rest close (splits (afterLine t))) ∧ log s' = log s ++ content close (splits (afterLine t)) := by
  obtain ⟨hb, hsec, hmac, hq⟩ := alternatives hK hc hcl
  have hd := delimited_block hS h0 hq
  rw [hcl] at hd
  have hd' : ∀ b st s r, Eval grammar S (.alt (.rule R.DelimitedBlock) b) st s t r → Outcome log s t (some close) r := by
    intro b st s r h
    rcases eval_alt.mp h with ⟨s1, h1, h2⟩ | ⟨s1, u, h1, rfl⟩
    · obtain ⟨_, e, _⟩ := hd _ _ _ h1; cases e
    · exact hd _ _ _ h1
  intro st s r h
  exact outcome_never hS (hb _ (by decide)) (outcome_never hS hmac (outcome_never hS (hb _ (by decide)) (outcome_never hS (hb _ (by decide))
    (outcome_never hS (hb _ (by decide)) (outcome_never hS (hb _ (by decide)) (outcome_never hS (hb _ (by decide)) (outcome_never hS hsec
    (hd' _)))))))) st s r h

theorem attributes_kept (hS : BlockCode S len log) {st : Text} {s : σ} {t : Text} {r : Res σ}
    (h : Eval grammar S (.rule R.BlockAttributes) st s t r) (hr : r.rest = none) : log r.st = log s := by
  have h := eval_rule.mp h
  rcases eval_act.mp h with ⟨s1, h1, rfl⟩ | ⟨s1, u, h1, rfl⟩
  · rcases eval_plus.mp h1 with ⟨s2, h2, e⟩ | ⟨s2, u, h2, h3⟩
    · cases e
      -- each alternative is a sequence: the state is restored when it fails
      have hsc : ∀ (id : Nat) (e : Exp) (s s' : σ), Eval grammar S (.act id (.scope e)) t s t (.fail s') → log s' = log s := by
        intro id e s s' h
        rcases eval_act.mp h with ⟨s1, h1, e⟩ | ⟨s1, u, h1, e⟩
        · cases e
          rcases eval_scope.mp h1 with ⟨s2, h2, e⟩ | ⟨s2, u, h2, e⟩
          · cases e; exact (hS.restore _ _).2
          · cases e
        · cases e
      rcases eval_alt.mp h2 with ⟨s3, _, h4⟩ | ⟨s3, u, _, e⟩
      · rcases eval_alt.mp h4 with ⟨s5, _, h6⟩ | ⟨s5, u, _, e⟩
        · refine (hsc _ _ _ _ h6).trans ?_
          rw [(hS.restore _ _).2, (hS.restore _ _).2]
        · cases e
      · cases e
    · rcases eval_star.mp h3 with ⟨_, _, e⟩ | ⟨_, _, _, h4⟩
      · cases e
      · have := C48.sure_star (S := S) _ _ _ _ h4
        cases this
  · cases hr

/-- **C49**: in a document, where a line opens a block, other than a comment, the next element is this block: its lines are the following ones up to the first
that closes it, or to the end of the document, and what follows is parsed from the line after. -/
theorem block_extent (hS : BlockCode S len log) (hK : Follows S (fun _ _ => none)) (hP : ∀ s st t, t.length < st.length → (S.pred 47 s st t).1 = true)
    {t l e : Text} {ls : List (Text × Text)} {close : Text → Bool} (ht : splits t = (l, e) :: ls) (hc : comment l = none) (hcl : closing l = some close)
    {st : Text} {s : σ} {r : Res σ} (h : Eval grammar S (.rule R.DocumentFragment) st s t r) :
    ∃ s', r = .ok s' (rest close ls) ∧ log s' = log s ++ content close ls := by
  have h0 : t ≠ [] := by rintro rfl; cases ht
  obtain ⟨e', _, _, _, hsp⟩ := splits_cons h0
  rw [ht] at hsp
  cases hsp
  have hel := element_block hS hK h0 hc hcl
  have hba : Never grammar S (.rule R.BlockAttributes) t := (alternatives hK hc hcl).1 _ (by decide)
  have hlt : (rest close (splits (afterLine t))).length < t.length := by
    have h1 : (rest close (splits (afterLine t))).length ≤ (afterLine t).length := by
      have h2 : ∀ ls : List (Text × Text), ∀ ms, ms <:+ ls → (joins ms).length ≤ (joins ls).length := by
        rintro ls ms ⟨p, rfl⟩
        unfold joins
        rw [List.map_append, List.flatten_append, List.length_append]
        omega
      have := h2 (splits (afterLine t)) ((splits (afterLine t)).dropWhile (fun l => !close l.1)).tail
        ((List.tail_suffix _).trans (List.dropWhile_suffix _))
      rw [joins_splits] at this
      exact this
    have := afterLine_lt h0
    omega
  have hseq : ∀ r, Eval grammar S (.seq (.rule R.NotEOF) (.seq (.opt (.rule R.BlockAttributes)) (.seq (.state 46) (.seq (.opt element) (.pred 47))))) t s t r →
      ∃ s', r = .ok s' (rest close (splits (afterLine t))) ∧ log s' = log s ++ content close (splits (afterLine t)) := by
    intro r h
    have hne : Yields grammar S (.rule R.NotEOF) t (some t) := by
      cases t with
      | nil => exact absurd rfl h0
      | cons c t => exact yields_NotEOF
    rcases eval_seq.mp h with ⟨s1, h1, _⟩ | ⟨s1, v, h1, h2⟩
    · cases hne _ _ _ h1
    · cases hne _ _ _ h1
      have k1 : log s1 = log s := (kept_rule hS (by decide) h1).2
      rcases eval_seq.mp h2 with ⟨s2, h3, _⟩ | ⟨s2, v, h3, h4⟩
      · rcases eval_opt.mp h3 with ⟨_, _, e⟩ | ⟨_, _, _, e⟩ <;> cases e
      · rcases eval_opt.mp h3 with ⟨s3, h5, e⟩ | ⟨s3, u, h5, _⟩
        · cases e
          have k2 : log s2 = log s1 := attributes_kept hS h5 rfl
          rcases eval_seq.mp h4 with ⟨s4, h6, _⟩ | ⟨s4, v, h6, h7⟩
          · cases eval_state.mp h6
          · cases eval_state.mp h6
            have k3 := (hS.state 46 s2 t t).2
            rcases eval_seq.mp h7 with ⟨s5, h8, _⟩ | ⟨s5, v, h8, h9⟩
            · rcases eval_opt.mp h8 with ⟨_, _, e⟩ | ⟨_, _, _, e⟩ <;> cases e
            · rcases eval_opt.mp h8 with ⟨s6, h10, e⟩ | ⟨s6, u, h10, e⟩
              · obtain ⟨_, e, _⟩ := hel _ _ _ h10; cases e
              · cases e
                obtain ⟨_, e, k4⟩ := hel _ _ _ h10
                cases e
                have hp := hP s5 t _ hlt
                have hq := hS.pred_log 47 s5 t (rest close (splits (afterLine t)))
                have h9 := eval_pred.mp h9
                rcases hpr : S.pred 47 s5 t (rest close (splits (afterLine t))) with ⟨b, s7⟩
                rw [hpr] at hp hq h9
                cases hp
                refine ⟨s7, h9, ?_⟩
                dsimp only at hq
                rw [hq, k4, k3, k2, k1]
        · cases hba _ _ _ h5
  have h := eval_rule.mp h
  rw [fragment_rule] at h
  rcases eval_act.mp h with ⟨s1, h1, rfl⟩ | ⟨s1, u, h1, rfl⟩
  · rcases eval_scope.mp h1 with ⟨s2, h2, e⟩ | ⟨s2, v, h2, e⟩
    · obtain ⟨_, e, _⟩ := hseq _ h2; cases e
    · cases e
  · rcases eval_scope.mp h1 with ⟨s2, h2, e⟩ | ⟨s2, v, h2, e⟩
    · cases e
    · cases e
      obtain ⟨_, e, k⟩ := hseq _ h2
      cases e
      exact ⟨_, rfl, by rw [hS.act_log _ _ _ _ (by decide)]; exact k⟩

/-- **C49**: and within any text that does not begin with `> `, the rule of delimited blocks (of comments, too) matches exactly where a line opens one. -/
theorem delimited_iff (hS : BlockCode S len log) {t l e : Text} {ls : List (Text × Text)} (ht : splits t = (l, e) :: ls) (hq : l.take 2 ≠ "> ".toList)
    {st : Text} {s : σ} {r : Res σ} (h : Eval grammar S (.rule R.DelimitedBlock) st s t r) :
    match closing l with
    | none => ∃ s', r = .fail s'
    | some close => ∃ s', r = .ok s' (rest close ls) ∧ log s' = log s ++ content close ls := by
  have h0 : t ≠ [] := by rintro rfl; cases ht
  obtain ⟨e', _, _, _, hsp⟩ := splits_cons h0
  rw [ht] at hsp
  cases hsp
  refine delimited_block hS h0 ?_ _ _ _ h
  cases t with
  | nil => rfl
  | cons a t =>
    by_cases ha : a = '>'
    · subst ha
      cases t with
      | nil => rfl
      | cons b t =>
        by_cases hb : b = ' '
        · subst hb
          exact absurd (by rw [firstLine_cons _ (by decide), firstLine_cons _ (by decide)]; rfl) hq
        · simp [matchLit, Ne.symm hb]
    · simp [matchLit, Ne.symm ha]

end

/-! ### Consequences -/

/-- Lines without a closing one do not end the block. -/
theorem rest_unclosed {close : Text → Bool} {ls : List (Text × Text)} (h : ∀ l ∈ ls, close l.1 = false) :
    content close ls = ls.map (·.1) ∧ rest close ls = [] := by
  have ha : ∀ x ∈ ls, (fun l : Text × Text => !close l.1) x = true := fun x hx => by simp [h x hx]
  have h1 := List.takeWhile_append_of_pos (l₂ := []) ha
  have h2 := List.dropWhile_append_of_pos (l₂ := []) ha
  rw [List.append_nil] at h1 h2
  unfold content rest
  rw [h1, h2]
  exact ⟨by simp, rfl⟩

/-- The first closing line ends it, whatever follows. -/
theorem rest_closed {close : Text → Bool} {ls ms : List (Text × Text)} {l : Text × Text} (h : ∀ l ∈ ls, close l.1 = false) (hl : close l.1 = true) :
    content close (ls ++ l :: ms) = ls.map (·.1) ∧ rest close (ls ++ l :: ms) = joins ms := by
  have ha : ∀ x ∈ ls, (fun l : Text × Text => !close l.1) x = true := fun x hx => by simp [h x hx]
  unfold content rest
  rw [List.takeWhile_append_of_pos ha, List.dropWhile_append_of_pos ha, List.takeWhile_cons_of_neg (by simp [hl]), List.dropWhile_cons_of_neg (by simp [hl]),
    List.append_nil]
  exact ⟨rfl, rfl⟩

/-- A line of `n` characters, at least the smallest number. -/
theorem sized_line {c : Char} {k n : Nat} (hk : k ≤ n) : sized c k (List.replicate n c) = some (fun m => delimLen c k m == some n) := by
  have h1 : leading c (List.replicate n c) = n := by
    unfold leading
    rw [List.takeWhile_replicate]
    simp
  have h2 : (List.replicate n c).dropWhile (· == c) = [] := by
    rw [List.dropWhile_replicate]; simp
  unfold sized delimLen
  rw [h1, h2, if_pos ⟨hk, rfl⟩]
  rfl

/-- Other lengths, and lines with anything else, are content. -/
theorem sized_closes {c : Char} {k n : Nat} {m : Text} (h : (delimLen c k m == some n) = true) :
    ∃ b, m = List.replicate n c ++ b ∧ ∀ x ∈ b, isBlank x = true := by
  have h := beq_iff_eq.mp h
  have h1 := delimLen_some h
  have h2 := (delimLen_le h).2
  refine ⟨m.dropWhile (· == c), ?_, fun x hx => List.all_eq_true.mp h2 x hx⟩
  have h3 : m.takeWhile (· == c) = List.replicate n c := by
    refine List.eq_replicate_iff.mpr ⟨h1.symm, fun x hx => ?_⟩
    have := List.all_eq_true.mp (List.all_takeWhile (p := (· == c)) (l := m)) x hx
    simpa using this
  rw [← h3, List.takeWhile_append_dropWhile]

/-- **C49** (finding): a comment block is closed by a delimiter of another length, unlike the other blocks. -/
theorem comment_any_length : comment "//////".toList = comment "////".toList ∧ (comment "//////".toList).map (fun close => close "////".toList) = some true ∧
    (sized '-' 4 "------".toList).map (fun close => close "----".toList) = some false := by
  refine ⟨rfl, by decide, by decide⟩

/-! ### The hypotheses are met -/

/-- The length, and the lines. -/
def blockSem : Sem (Nat × List Text) where
  letter c := c.isAlpha
  number c := c.isDigit
  pred id s st t :=
    match setters.find? (·.1 == id) with
    | some x => (true, (leading x.2 (st.take (st.length - t.length)), s.2))
    | none => match matchers.find? (·.1 == id) with
      | some x => (s.1 == leading x.2 (st.take (st.length - t.length)), s)
      | none => (decide (t.length < st.length), s)
  state _ s _ _ := s
  act id s t _ := if id = 138 then (s.1, s.2 ++ [firstLine t]) else s
  restore a b := (b.1, a.2)

theorem take_consumed (p t : Text) : (p ++ t).take ((p ++ t).length - t.length) = p := by
  rw [List.length_append, Nat.add_sub_cancel, List.take_left' rfl]

theorem blockSem_code : BlockCode blockSem Prod.fst Prod.snd where
  set x hx s p t := by
    show (blockSem.pred x.1 s (p ++ t) t).1 = true ∧ _
    simp only [setters, List.mem_cons, List.not_mem_nil, or_false] at hx
    rcases hx with rfl | rfl | rfl | rfl | rfl | rfl | rfl <;> simp [blockSem, setters]
  same x hx s p t := by
    simp only [matchers, List.mem_cons, List.not_mem_nil, or_false] at hx
    rcases hx with rfl | rfl | rfl | rfl | rfl | rfl | rfl <;> simp [blockSem, setters, matchers]
  pred_len id s st t hid := by
    have : setters.find? (·.1 == id) = none := by
      rw [List.find?_eq_none]
      intro x hx h
      exact hid (List.mem_map.mpr ⟨x, hx, by simpa using h⟩)
    unfold blockSem
    dsimp only
    rw [this]
    dsimp only
    split <;> rfl
  pred_log id s st t := by
    unfold blockSem
    dsimp only
    split
    · rfl
    · split <;> rfl
  state_len _ _ _ _ := rfl
  state_log _ _ _ _ := rfl
  act_len id s t u := by unfold blockSem; dsimp only; split <;> rfl
  act_log id s t u h := by unfold blockSem; dsimp only; rw [if_neg h]
  line s t u := by unfold blockSem; dsimp only; rw [if_pos rfl]
  restore_len _ _ := rfl
  restore_log _ _ := rfl

theorem blockSem_follows : Follows blockSem (fun _ _ => none) where
  pred _ _ _ _ _ h := nomatch h
  letter _ _ := rfl
  number _ _ := rfl

/-- A listing of five dashes that contains one of four, and blank lines, then a paragraph. -/
def sample : Text := "-----  \n\n----\r\n= a\n----\n-----\nafter".toList

example : ∃ l e ls close, splits sample = (l, e) :: ls ∧ comment l = none ∧ closing l = some close ∧
    content close ls = ["".toList, "----".toList, "= a".toList, "----".toList] ∧ rest close ls = "after".toList :=
  ⟨_, _, _, _, rfl, rfl, rfl, by decide, by decide⟩

example (s : Nat × List Text) (st : Text) (t : Text) (h : t.length < st.length) : (blockSem.pred 47 s st t).1 = true := by
  show decide (t.length < st.length) = true
  simpa using h

/-- And the parser does so. -/
example : (run grammar blockSem 60 (.rule R.DocumentFragment) sample (0, []) sample).map (fun r => (r.rest, r.st.2)) =
    some (some "after".toList, ["".toList, "----".toList, "= a".toList, "----".toList]) := by decide +kernel

end C49
end Verif
