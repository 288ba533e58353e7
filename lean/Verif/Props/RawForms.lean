import Verif.Props.RawLine
/-!
# C50 — The lines that preprocessing acts upon

The statements of C50: which texts are read as what. They are consequences of `Verif.C50.raw_line`.
-/
namespace Verif
namespace C50
open Peg Grammar C49 RawLine Ifeval
open C48 (firstLine)
open C35 (NameText)

/-! ### Specification -/

/-- Spaces and tabs. -/
def Blanks (b : Text) : Prop := ∀ c ∈ b, c = ' ' ∨ c = '\t'

/-- `keyword` `name` `[` `content` `]` and nothing else than blanks. -/
def Directive (keyword : String) (name content l : Text) : Prop :=
  (∀ c ∈ name, c ∉ ['\r', '\n', ' ', '[']) ∧ (∀ c ∈ content, c ∉ ['\r', '\n', ']']) ∧
    ∃ b, Blanks b ∧ l = keyword.toList ++ name ++ ['['] ++ content ++ [']'] ++ b

/-- An empty content is no content. -/
def contentOf (c : Text) : Option Text := if c = [] then none else some c

/-- `:!name:` or `:name!:` and blanks. -/
def Resets (al : Class) (n l : Text) : Prop :=
  NameText al n ∧ ∃ b, Blanks b ∧ (l = ":!".toList ++ n ++ ":".toList ++ b ∨ l = ":".toList ++ n ++ "!:".toList ++ b)

/-- The characters of delimiters, with the least number of them and the kind of block. -/
def table : List (Char × Nat × String) :=
  [('/', 4, "comment"), ('=', 4, "example"), ('`', 3, "fenced"), ('-', 4, "listing"), ('.', 4, "listing"), ('+', 4, "pass"), ('_', 4, "quote"), ('*', 4, "sidebar")]

/-- `n` times the character of a delimiter and blanks; or three backquotes, a language and blanks. -/
def Delimits (kind : String) (n : Nat) (l : Text) : Prop :=
  (∃ c k b, (c, k, kind) ∈ table ∧ k ≤ n ∧ Blanks b ∧ l = List.replicate n c ++ b) ∨
  (kind = "fenced" ∧ n = 3 ∧ ∃ lang b, lang ≠ [] ∧ (∀ c ∈ lang, c ∉ ['\r', '\n', '`', ' ']) ∧ Blanks b ∧ l = "```".toList ++ lang ++ b)

/-- `n + 1` (at most 6) times `=`, blanks and a title. -/
def Titles (n : Nat) (l : Text) : Prop :=
  n ≤ 5 ∧ ∃ b c t, b ≠ [] ∧ Blanks b ∧ ¬ Blanks [c] ∧ l = List.replicate (n + 1) '=' ++ b ++ c :: t

/-! ### The functions and the specification -/

theorem blanks_iff {b : Text} : b.all isSpace = true ↔ Blanks b := by
  rw [List.all_eq_true]
  unfold Blanks isSpace
  simp only [Bool.or_eq_true, decide_eq_true_eq]

theorem span_iff {p : Char → Bool} {t a b : Text} : (t.takeWhile p = a ∧ t.dropWhile p = b) ↔ (t = a ++ b ∧ (∀ c ∈ a, p c = true) ∧ (∀ c u, b = c :: u → p c = false)) := by
  constructor
  · rintro ⟨rfl, rfl⟩
    refine ⟨List.takeWhile_append_dropWhile.symm, fun c hc => List.all_eq_true.mp List.all_takeWhile c hc, ?_⟩
    intro c u h
    have := List.head?_dropWhile_not p t
    rw [h] at this
    simpa using this
  · rintro ⟨rfl, ha, hb⟩
    cases b with
    | nil =>
      rw [List.takeWhile_append_of_pos ha, List.dropWhile_append_of_pos ha]
      simp
    | cons c u =>
      have := hb c u rfl
      rw [List.takeWhile_append_of_pos ha, List.dropWhile_append_of_pos ha, List.takeWhile_cons_of_neg (by simp [this]), List.dropWhile_cons_of_neg (by simp [this])]
      simp

theorem pLit_self (kw t : Text) : pLit kw (kw ++ t) = some t := by simp [pLit]

theorem pCond_iff {kw : String} {opt : Bool} {l n : Text} {c' : Option Text} :
    pCond kw.toList opt l = some (n, c') ↔ (opt = false → n ≠ []) ∧ ∃ c, Directive kw n c l ∧ c' = contentOf c := by
  have hname : ∀ x, isName x = true ↔ x ∉ ['\r', '\n', ' ', '['] := by
    intro x; simp [isName, not_or, and_assoc]
  have hcont : ∀ x, isContent x = true ↔ x ∉ ['\r', '\n', ']'] := by
    intro x; simp [isContent, not_or, and_assoc]
  unfold pCond Directive
  constructor
  · intro h
    cases hp : pLit kw.toList l with
    | none => rw [hp] at h; cases h
    | some t =>
      rw [hp] at h
      dsimp only at h
      split at h
      · cases h
      · next hopt =>
        rw [Option.map_eq_some_iff] at h
        obtain ⟨c1, h1, h2⟩ := h
        cases h2
        refine ⟨fun ho hn => hopt ⟨hn, ho⟩, ?_⟩
        obtain ⟨e1, e2, _⟩ := span_iff.mp (And.intro (Eq.refl (t.takeWhile isName)) (Eq.refl (t.dropWhile isName)))
        revert h1
        generalize hd : t.dropWhile isName = d
        intro h1
        rw [hd] at e1
        unfold pContent at h1
        cases d with
        | nil => cases h1
        | cons x d =>
          dsimp only at h1
          split at h1
          · next hx =>
            subst hx
            obtain ⟨f1, f2, _⟩ := span_iff.mp (And.intro (Eq.refl (d.takeWhile isContent)) (Eq.refl (d.dropWhile isContent)))
            revert h1
            generalize he : d.dropWhile isContent = e
            intro h1
            rw [he] at f1
            unfold pEnd at h1
            cases e with
            | nil => cases h1
            | cons y e =>
              dsimp only at h1
              split at h1
              · next hy =>
                obtain ⟨rfl, hy⟩ := hy
                refine ⟨d.takeWhile isContent, ⟨fun c hc => (hname c).mp (e2 c hc), fun c hc => (hcont c).mp (f2 c hc), e, blanks_iff.mp hy, ?_⟩, ?_⟩
                · have : t = t.takeWhile isName ++ '[' :: (d.takeWhile isContent ++ ']' :: e) := by rw [← f1]; exact e1
                  rw [pLit_some hp]
                  exact (congrArg (kw.toList ++ ·) this).trans (by simp)
                · unfold contentOf; exact (Option.some.inj h1).symm
              · cases h1
          · cases h1
  · rintro ⟨hopt, c, ⟨hn, hc, b, hb, rfl⟩, rfl⟩
    have e1 : kw.toList ++ n ++ ['['] ++ c ++ [']'] ++ b = kw.toList ++ (n ++ '[' :: (c ++ ']' :: b)) := by simp
    rw [e1, pLit_self]
    dsimp only
    obtain ⟨f1, f2⟩ := span_iff (p := isName) (t := n ++ '[' :: (c ++ ']' :: b)) (a := n) (b := '[' :: (c ++ ']' :: b)) |>.mpr
      ⟨rfl, fun x hx => (hname x).mpr (hn x hx), fun x u h => by cases h; rfl⟩
    obtain ⟨g1, g2⟩ := span_iff (p := isContent) (t := c ++ ']' :: b) (a := c) (b := ']' :: b) |>.mpr
      ⟨rfl, fun x hx => (hcont x).mpr (hc x hx), fun x u h => by cases h; rfl⟩
    rw [f1, f2, if_neg (fun h : _ ∧ _ => hopt h.2 h.1)]
    unfold pContent
    dsimp only
    rw [if_pos rfl, g1, g2]
    unfold pEnd
    dsimp only
    rw [if_pos ⟨rfl, blanks_iff.mpr hb⟩]
    rfl

theorem pDelim_iff {c : Char} {k n : Nat} {l : Text} (hc : c ≠ ' ' ∧ c ≠ '\t') :
    pDelim c k l = some n ↔ k ≤ n ∧ ∃ b, Blanks b ∧ l = List.replicate n c ++ b := by
  unfold pDelim
  constructor
  · intro h
    split at h
    · next hk =>
      cases h
      obtain ⟨e1, e2, _⟩ := span_iff.mp (And.intro (Eq.refl (l.takeWhile (· == c))) (Eq.refl (l.dropWhile (· == c))))
      refine ⟨hk.1, _, blanks_iff.mp hk.2, ?_⟩
      have : l.takeWhile (· == c) = List.replicate (l.takeWhile (· == c)).length c := by
        rw [List.eq_replicate_iff]
        exact ⟨rfl, fun x hx => by simpa using e2 x hx⟩
      rw [← this]
      exact e1
    · cases h
  · rintro ⟨hk, b, hb, rfl⟩
    obtain ⟨f1, f2⟩ := span_iff (p := (· == c)) (t := List.replicate n c ++ b) (a := List.replicate n c) (b := b) |>.mpr
      ⟨rfl, fun x hx => by simp [(List.mem_replicate.mp hx).2], fun x u h => by
        subst h
        have := hb x (by simp)
        rcases this with rfl | rfl
        · simpa using hc.1.symm
        · simpa using hc.2.symm⟩
    rw [f1, f2, List.length_replicate, if_pos ⟨hk, blanks_iff.mpr hb⟩]

theorem pCode_iff {l : Text} : pCode l = true ↔ ∃ lang b, lang ≠ [] ∧ (∀ c ∈ lang, c ∉ ['\r', '\n', '`', ' ']) ∧ Blanks b ∧ l = "```".toList ++ lang ++ b := by
  have hlang : ∀ x, isLanguage x = true ↔ x ∉ ['\r', '\n', '`', ' '] := by
    intro x; simp [isLanguage, not_or, and_assoc]
  unfold pCode
  constructor
  · intro h
    cases hp : pLit "```".toList l with
    | none => rw [hp] at h; cases h
    | some t =>
      rw [hp] at h
      dsimp only at h
      rw [Bool.and_eq_true, decide_eq_true_eq] at h
      obtain ⟨e1, e2, _⟩ := span_iff.mp (And.intro (Eq.refl (t.takeWhile isLanguage)) (Eq.refl (t.dropWhile isLanguage)))
      refine ⟨_, _, h.1, fun c hc => (hlang c).mp (e2 c hc), blanks_iff.mp h.2, ?_⟩
      rw [pLit_some hp, List.append_assoc, ← e1]
  · rintro ⟨lang, b, h0, hl, hb, rfl⟩
    rw [List.append_assoc, pLit_self]
    dsimp only
    have htabs : ∀ (lang b : Text), (∀ c ∈ lang, isLanguage c = true) → Blanks b → lang ≠ [] →
        (lang ++ b).takeWhile isLanguage ≠ [] ∧ ((lang ++ b).dropWhile isLanguage).all isSpace = true := by
      intro lang b hl hb h0
      constructor
      · cases lang with
        | nil => exact absurd rfl h0
        | cons x xs =>
          rw [List.cons_append, List.takeWhile_cons_of_pos (hl x (by simp))]
          exact (fun e => nomatch e)
      · rw [List.dropWhile_append_of_pos hl, List.all_eq_true]
        intro x hx
        have := List.all_eq_true.mp (blanks_iff.mpr hb) x ((List.dropWhile_suffix _).subset hx)
        exact this
    obtain ⟨h1, h2⟩ := htabs lang b (fun c hc => (hlang c).mpr (hl c hc)) hb h0
    rw [h2, Bool.and_true]
    exact decide_eq_true h1

theorem pSection_iff {n : Nat} {l : Text} (hl : NoEol l) : pSection l = some n ↔ Titles n l := by
  have hall : ∀ u : Text, u <:+ l → u.all (fun c => !(c == '\r' || c == '\n')) = true := by
    intro u hu
    rw [List.all_eq_true]
    intro c hc
    have := (hl.suffix hu) c hc
    rw [Bool.or_comm]
    simp only [isEol] at this
    rw [this]; rfl
  unfold pSection Titles
  dsimp only
  constructor
  · intro h
    split at h
    · next hc =>
      cases h
      obtain ⟨h1, h6, ht⟩ := hc
      obtain ⟨e1, e2, _⟩ := span_iff.mp (And.intro (Eq.refl (l.takeWhile (· == '='))) (Eq.refl (l.dropWhile (· == '='))))
      unfold pTitle at ht
      simp only [Bool.and_eq_true, decide_eq_true_eq] at ht
      obtain ⟨⟨ht1, ht2⟩, _⟩ := ht
      obtain ⟨f1, f2, f3⟩ := span_iff.mp (And.intro (Eq.refl ((l.dropWhile (· == '=')).takeWhile isSpace)) (Eq.refl ((l.dropWhile (· == '=')).dropWhile isSpace)))
      refine ⟨by omega, (l.dropWhile (· == '=')).takeWhile isSpace, ?_⟩
      cases hd : (l.dropWhile (· == '=')).dropWhile isSpace with
      | nil => exact absurd hd ht2
      | cons c t =>
        refine ⟨c, t, ht1, blanks_iff.mp List.all_takeWhile, ?_, ?_⟩
        · intro hb
          have := f3 c t hd
          have hb := blanks_iff.mpr hb
          simp [this] at hb
        · have hr : l.takeWhile (· == '=') = List.replicate ((l.takeWhile (· == '=')).length - 1 + 1) '=' := by
            rw [List.eq_replicate_iff]
            exact ⟨by omega, fun x hx => by simpa using e2 x hx⟩
          rw [← hr]
          rw [hd] at f1
          rw [List.append_assoc, ← f1]
          exact e1
    · cases h
  · rintro ⟨hn, b, c, t, hb0, hb, hc, rfl⟩
    have hnb : isSpace c = false := by
      cases h : isSpace c with
      | false => rfl
      | true => exact absurd (blanks_iff.mp (by simp [h])) hc
    obtain ⟨f1, f2⟩ := span_iff (p := (· == '=')) (t := List.replicate (n + 1) '=' ++ b ++ c :: t) (a := List.replicate (n + 1) '=') (b := b ++ c :: t) |>.mpr
      ⟨by simp, fun x hx => by simp [(List.mem_replicate.mp hx).2], fun x u h => by
        cases b with
        | nil => exact absurd rfl hb0
        | cons y b =>
          cases h
          have := hb x (by simp)
          rcases this with rfl | rfl <;> decide⟩
    obtain ⟨g1, g2⟩ := span_iff (p := isSpace) (t := b ++ c :: t) (a := b) (b := c :: t) |>.mpr
      ⟨rfl, fun x hx => List.all_eq_true.mp (blanks_iff.mpr hb) x hx, fun x u h => by cases h; exact hnb⟩
    rw [f1, f2, List.length_replicate]
    have ht : pTitle (b ++ c :: t) = true := by
      unfold pTitle
      rw [g1, g2, hall (c :: t) ⟨_, rfl⟩, Bool.and_true, decide_eq_true hb0]
      rfl
    rw [if_pos ⟨by omega, by omega, ht⟩]
    simp

theorem pReset_iff {al : Class} (h1 : al ':' = false) (h2 : al '!' = false) {n l : Text} : pReset al l = some n ↔ Resets al n l := by
  have form : ∀ {start colon l n : Text}, pResetForm al start colon l = some n → NameText al n ∧ ∃ b, Blanks b ∧ l = start ++ n ++ colon ++ b := by
    intro start colon l n h
    unfold pResetForm at h
    cases hp : pLit start l with
    | none => rw [hp] at h; cases h
    | some t =>
      rw [hp] at h
      dsimp only at h
      unfold pResetEnd at h
      cases hn : pName al t with
      | none => rw [hn] at h; cases h
      | some x =>
        obtain ⟨n', u⟩ := x
        rw [hn] at h
        dsimp only at h
        cases hq : pLit colon u with
        | none => rw [hq] at h; cases h
        | some v =>
          rw [hq] at h
          dsimp only at h
          split at h
          · next hb =>
            cases h
            exact ⟨(pName_some hn).2, v, blanks_iff.mp hb, by rw [pLit_some hp, (pName_some hn).1, pLit_some hq]; simp⟩
          · cases h
  have back : ∀ {start : Text} {c : Char} {cs n b : Text}, al c = false → c ≠ '-' → NameText al n → Blanks b →
      pResetForm al start (c :: cs) (start ++ (n ++ (c :: cs ++ b))) = some n := by
    intro start c cs n b h1 h2 hn hb
    unfold pResetForm
    rw [pLit_self]
    dsimp only
    have := C35.pName_complete al n c (cs ++ b) hn ⟨h1, h2⟩
    rw [List.cons_append, this]
    unfold pResetEnd
    dsimp only
    rw [← List.cons_append, pLit_self]
    dsimp only
    rw [if_pos (blanks_iff.mpr hb)]
  unfold pReset Resets
  constructor
  · intro h
    cases hp : pResetForm al ":!".toList ":".toList l with
    | some n' =>
      rw [hp] at h
      cases h
      obtain ⟨hn, b, hb, e⟩ := form hp
      exact ⟨hn, b, hb, Or.inl e⟩
    | none =>
      rw [hp, Option.none_or] at h
      obtain ⟨hn, b, hb, e⟩ := form h
      exact ⟨hn, b, hb, Or.inr e⟩
  · rintro ⟨hn, b, hb, rfl | rfl⟩
    · have : ":!".toList ++ n ++ ":".toList ++ b = ":!".toList ++ (n ++ (':' :: [] ++ b)) := by simp
      rw [this]
      have hb := back (start := ":!".toList) (c := ':') (cs := []) h1 (by decide) hn hb
      have : pResetForm al ":!".toList ":".toList (":!".toList ++ (n ++ (':' :: [] ++ b))) = some n := hb
      rw [this]; rfl
    · have : ":".toList ++ n ++ "!:".toList ++ b = ":".toList ++ (n ++ ('!' :: [':'] ++ b)) := by simp
      rw [this]
      have hb := back (start := ":".toList) (c := '!') (cs := [':']) h2 (by decide) hn hb
      have hb : pResetForm al ":".toList "!:".toList (":".toList ++ (n ++ ('!' :: [':'] ++ b))) = some n := hb
      have hno : pResetForm al ":!".toList ":".toList (":".toList ++ (n ++ ('!' :: [':'] ++ b))) = none := by
        obtain ⟨x, xs, rfl, hx, _⟩ := hn
        have hx' : x ≠ '!' := by
          rintro rfl
          rcases hx with hx | hx
          · rw [h2] at hx; cases hx
          · exact absurd hx (by decide)
        unfold pResetForm
        have : pLit ":!".toList (":".toList ++ (x :: xs ++ ('!' :: [':'] ++ b))) = none := by
          simp [pLit, Ne.symm hx']
        rw [this]
      rw [hno, hb]; rfl

/-! ### What `lineOf` returns -/

section
variable {σ : Type} {S : Sem σ}

theorem or_inv {α : Type} {x y : Option α} {e : α} (h : x.or y = some e) : x = some e ∨ (x = none ∧ y = some e) := by
  cases x with
  | none => exact Or.inr ⟨rfl, h⟩
  | some a => exact Or.inl h

theorem pDelim_other {c d : Char} {k : Nat} {t : Text} (hk : 0 < k) (h : d ≠ c) : pDelim c k (d :: t) = none := by
  cases hp : pDelim c k (d :: t) with
  | none => rfl
  | some n => obtain ⟨u, hu⟩ := leading_pos hk hp; cases hu; exact absurd rfl h

theorem pCode_other {d : Char} {t : Text} (h : d ≠ '`') : pCode (d :: t) = false := by
  cases hp : pCode (d :: t) with
  | false => rfl
  | true => obtain ⟨u, hu⟩ := pCode_start hp; cases hu; exact absurd rfl h

theorem delimOf_iff {l : Text} {e : RawElem} : delimOf l = some e ↔ ∃ kind n, Delimits kind n l ∧ e = .delim kind n l := by
  have row : ∀ {c : Char} {k : Nat} {kind : String}, (c, k, kind) ∈ table → c ≠ ' ' ∧ c ≠ '\t' ∧ 0 < k := by
    intro c k kind h
    simp only [table, List.mem_cons, List.not_mem_nil, or_false, Prod.mk.injEq] at h
    rcases h with ⟨rfl, rfl, rfl⟩ | ⟨rfl, rfl, rfl⟩ | ⟨rfl, rfl, rfl⟩ | ⟨rfl, rfl, rfl⟩ | ⟨rfl, rfl, rfl⟩ | ⟨rfl, rfl, rfl⟩ | ⟨rfl, rfl, rfl⟩ | ⟨rfl, rfl, rfl⟩ <;> decide
  constructor
  · intro h
    have one : ∀ {c : Char} {k : Nat} {kind : String}, (c, k, kind) ∈ table → (pDelim c k l).map (fun n => RawElem.delim kind n l) = some e →
        ∃ kind n, Delimits kind n l ∧ e = .delim kind n l := by
      intro c k kind hm h
      rw [Option.map_eq_some_iff] at h
      obtain ⟨n, hn, rfl⟩ := h
      obtain ⟨hk, b, hb, e⟩ := (pDelim_iff ⟨(row hm).1, (row hm).2.1⟩).mp hn
      exact ⟨kind, n, Or.inl ⟨c, k, b, hm, hk, hb, e⟩, rfl⟩
    unfold delimOf at h
    rcases or_inv h with h | ⟨_, h⟩; · exact one (by decide) h
    rcases or_inv h with h | ⟨_, h⟩; · exact one (by decide) h
    rcases or_inv h with h | ⟨_, h⟩
    · cases hc : pCode l with
      | false => rw [hc] at h; cases h
      | true =>
        rw [hc] at h
        cases h
        exact ⟨"fenced", 3, Or.inr ⟨rfl, rfl, pCode_iff.mp hc⟩, rfl⟩
    rcases or_inv h with h | ⟨_, h⟩; · exact one (by decide) h
    rcases or_inv h with h | ⟨_, h⟩; · exact one (by decide) h
    rcases or_inv h with h | ⟨_, h⟩; · exact one (by decide) h
    rcases or_inv h with h | ⟨_, h⟩; · exact one (by decide) h
    rcases or_inv h with h | ⟨_, h⟩; · exact one (by decide) h
    exact one (by decide) h
  · rintro ⟨kind, n, ⟨c, k, b, hm, hk, hb, hl⟩ | ⟨rfl, rfl, hc⟩, rfl⟩
    · have hp := (pDelim_iff (k := k) ⟨(row hm).1, (row hm).2.1⟩).mpr ⟨hk, b, hb, hl⟩
      obtain ⟨t, rfl⟩ := leading_pos (row hm).2.2 hp
      have hcode : c = '`' → pCode (c :: t) = true → n = 3 := by
        rintro rfl h
        obtain ⟨lang, b', h0, hlang, _, e⟩ := pCode_iff.mp h
        have hn := pDelim_leading hp
        rw [e] at hn
        cases lang with
        | nil => exact absurd rfl h0
        | cons x xs =>
          have hx : x ≠ '`' := fun e => hlang x (by simp) (by simp [e])
          have : leading '`' ("```".toList ++ x :: xs ++ b') = 3 := by
            unfold leading
            have : ("```".toList ++ x :: xs ++ b') = '`' :: '`' :: '`' :: x :: (xs ++ b') := by simp
            rw [this]
            simp [List.takeWhile_cons, hx]
          rw [this] at hn
          exact hn
      unfold delimOf
      simp only [table, List.mem_cons, List.not_mem_nil, or_false, Prod.mk.injEq] at hm
      rcases hm with ⟨rfl, rfl, rfl⟩ | ⟨rfl, rfl, rfl⟩ | ⟨rfl, rfl, rfl⟩ | ⟨rfl, rfl, rfl⟩ | ⟨rfl, rfl, rfl⟩ | ⟨rfl, rfl, rfl⟩ | ⟨rfl, rfl, rfl⟩ | ⟨rfl, rfl, rfl⟩
      · rw [hp]; rfl
      · rw [hp, pDelim_other (by decide) (by decide)]; rfl
      · rw [hp, pDelim_other (c := '/') (by decide) (by decide), pDelim_other (c := '=') (by decide) (by decide)]
        cases hc : pCode ('`' :: t) with
        | false => rfl
        | true => rw [hcode rfl hc]; rfl
      · rw [hp, pDelim_other (c := '/') (by decide) (by decide), pDelim_other (c := '=') (by decide) (by decide), pCode_other (by decide), pDelim_other (c := '`') (by decide) (by decide)]; rfl
      · rw [hp, pDelim_other (c := '/') (by decide) (by decide), pDelim_other (c := '=') (by decide) (by decide), pCode_other (by decide), pDelim_other (c := '`') (by decide) (by decide),
          pDelim_other (c := '-') (by decide) (by decide)]; rfl
      · rw [hp, pDelim_other (c := '/') (by decide) (by decide), pDelim_other (c := '=') (by decide) (by decide), pCode_other (by decide), pDelim_other (c := '`') (by decide) (by decide),
          pDelim_other (c := '-') (by decide) (by decide), pDelim_other (c := '.') (by decide) (by decide)]; rfl
      · rw [hp, pDelim_other (c := '/') (by decide) (by decide), pDelim_other (c := '=') (by decide) (by decide), pCode_other (by decide), pDelim_other (c := '`') (by decide) (by decide),
          pDelim_other (c := '-') (by decide) (by decide), pDelim_other (c := '.') (by decide) (by decide), pDelim_other (c := '+') (by decide) (by decide)]; rfl
      · rw [hp, pDelim_other (c := '/') (by decide) (by decide), pDelim_other (c := '=') (by decide) (by decide), pCode_other (by decide), pDelim_other (c := '`') (by decide) (by decide),
          pDelim_other (c := '-') (by decide) (by decide), pDelim_other (c := '.') (by decide) (by decide), pDelim_other (c := '+') (by decide) (by decide),
          pDelim_other (c := '_') (by decide) (by decide)]; rfl
    · have hc := pCode_iff.mpr hc
      obtain ⟨t, rfl⟩ := pCode_start hc
      unfold delimOf
      rw [pDelim_other (c := '/') (by decide) (by decide), pDelim_other (c := '=') (by decide) (by decide), hc]
      rfl

/-- The four conditional directives. -/
def CondText (al : Class) (l : Text) : RawElem → Prop
  | .cond (.ifdef n c) => ∃ nm ct, nm ≠ [] ∧ Directive "ifdef::" nm ct l ∧ n = String.ofList nm ∧ c = contentOf ct
  | .cond (.ifndef n c) => ∃ nm ct, nm ≠ [] ∧ Directive "ifndef::" nm ct l ∧ n = String.ofList nm ∧ c = contentOf ct
  | .cond (.ifeval a op b) => pIfeval al l = some (.ifeval a op b)
  | .endif => ∃ nm ct, Directive "endif::" nm ct l
  | _ => False

theorem Directive.start {kw : String} {n c l : Text} (h : Directive kw n c l) : kw.toList <+: l := by
  obtain ⟨_, _, b, _, rfl⟩ := h
  exact ⟨n ++ ['['] ++ c ++ [']'] ++ b, by simp⟩

theorem pIfeval_start {al : Class} {l : Text} {c : Cond} (h : pIfeval al l = some c) : "ifeval::[".toList <+: l ∧ ∃ a op b, c = .ifeval a op b := by
  unfold pIfeval at h
  cases hp : pLit "ifeval::[".toList l with
  | none => rw [hp] at h; cases h
  | some t =>
    refine ⟨⟨t, (pLit_some hp).symm⟩, ?_⟩
    rw [hp] at h
    dsimp only at h
    split at h
    · cases h
    · split at h
      · cases h
      · unfold pRight at h
        split at h
        · cases h
        · split at h
          · cases h; exact ⟨_, _, _, rfl⟩
          · cases h

theorem no_cond {kw l : Text} {b : Bool} (h : ¬ kw <+: l) : pCond kw b l = none := by
  cases hp : pCond kw b l with
  | none => rfl
  | some x => exact absurd (pCond_start hp) h

theorem condOf_iff {l : Text} {e : RawElem} : condOf S l = some e ↔ CondText (alnum S) l e := by
  constructor
  · intro h
    unfold condOf at h
    rcases or_inv h with h | ⟨_, h⟩
    · rw [Option.map_eq_some_iff] at h
      obtain ⟨⟨n, c⟩, hn, rfl⟩ := h
      obtain ⟨h0, c', hd, rfl⟩ := pCond_iff.mp hn
      exact ⟨n, c', h0 rfl, hd, rfl, rfl⟩
    rcases or_inv h with h | ⟨_, h⟩
    · rw [Option.map_eq_some_iff] at h
      obtain ⟨⟨n, c⟩, hn, rfl⟩ := h
      obtain ⟨h0, c', hd, rfl⟩ := pCond_iff.mp hn
      exact ⟨n, c', h0 rfl, hd, rfl, rfl⟩
    rcases or_inv h with h | ⟨_, h⟩
    · rw [Option.map_eq_some_iff] at h
      obtain ⟨c, hc, rfl⟩ := h
      obtain ⟨_, a, op, b, rfl⟩ := pIfeval_start hc
      exact hc
    · rw [Option.map_eq_some_iff] at h
      obtain ⟨⟨n, c⟩, hn, rfl⟩ := h
      obtain ⟨_, c', hd, rfl⟩ := pCond_iff.mp hn
      exact ⟨n, c', hd⟩
  · intro h
    cases e with
    | decl => cases h
    | reset => cases h
    | incl => cases h
    | delim => cases h
    | sect => cases h
    | endif =>
      obtain ⟨n, c, hd⟩ := h
      obtain ⟨t, ht⟩ := hd.start
      have hp := (pCond_iff (opt := true) (c' := contentOf c)).mpr ⟨(fun e => nomatch e), c, hd, rfl⟩
      unfold condOf
      have hno : pIfeval (alnum S) l = none := by
        cases hp : pIfeval (alnum S) l with
        | none => rfl
        | some x => obtain ⟨⟨u, hu⟩, _⟩ := pIfeval_start hp; rw [← ht] at hu; cases hu
      rw [hp, no_cond (kw := "ifdef::".toList) (by rintro ⟨u, hu⟩; rw [← ht] at hu; cases hu),
        no_cond (kw := "ifndef::".toList) (by rintro ⟨u, hu⟩; rw [← ht] at hu; cases hu), hno]
      rfl
    | cond c =>
      cases c with
      | ifdef n c =>
        obtain ⟨nm, ct, h0, hd, rfl, rfl⟩ := h
        have hp := (pCond_iff (opt := false) (c' := contentOf ct)).mpr ⟨fun _ => h0, ct, hd, rfl⟩
        unfold condOf
        rw [hp]; rfl
      | ifndef n c =>
        obtain ⟨nm, ct, h0, hd, rfl, rfl⟩ := h
        obtain ⟨t, ht⟩ := hd.start
        have hp := (pCond_iff (opt := false) (c' := contentOf ct)).mpr ⟨fun _ => h0, ct, hd, rfl⟩
        unfold condOf
        rw [hp, no_cond (kw := "ifdef::".toList) (by rintro ⟨u, hu⟩; rw [← ht] at hu; cases hu)]; rfl
      | ifeval a op b =>
        have h : pIfeval (alnum S) l = some (.ifeval a op b) := h
        obtain ⟨⟨t, ht⟩, _⟩ := pIfeval_start h
        unfold condOf
        rw [h, no_cond (kw := "ifdef::".toList) (by rintro ⟨u, hu⟩; rw [← ht] at hu; cases hu),
          no_cond (kw := "ifndef::".toList) (by rintro ⟨u, hu⟩; rw [← ht] at hu; cases hu)]; rfl

theorem CondText.start {al : Class} {l : Text} {e : RawElem} (h : CondText al l e) : ∃ c t, l = c :: t ∧ (c = 'i' ∨ c = 'e') := by
  have key : ∀ {kw : Text} {c : Char} {cs : Text}, kw = c :: cs → (c = 'i' ∨ c = 'e') → kw <+: l → ∃ c t, l = c :: t ∧ (c = 'i' ∨ c = 'e') := by
    rintro kw c cs rfl hc ⟨t, rfl⟩
    exact ⟨c, _, rfl, hc⟩
  cases e with
  | decl => cases h
  | reset => cases h
  | incl => cases h
  | delim => cases h
  | sect => cases h
  | endif => obtain ⟨n, c, hd⟩ := h; exact key rfl (Or.inr rfl) hd.start
  | cond c =>
    cases c with
    | ifdef n c => obtain ⟨nm, ct, _, hd, _⟩ := h; exact key rfl (Or.inl rfl) hd.start
    | ifndef n c => obtain ⟨nm, ct, _, hd, _⟩ := h; exact key rfl (Or.inl rfl) hd.start
    | ifeval a op b => exact key rfl (Or.inl rfl) (pIfeval_start h).1

theorem Delimits.start {kind : String} {n : Nat} {l : Text} (h : Delimits kind n l) : ∃ c t, l = c :: t ∧ c ∈ "/=`-.+_*".toList :=
  delimOf_start (delimOf_iff.mpr ⟨kind, n, h, rfl⟩)

theorem Titles.start {n : Nat} {l : Text} (h : Titles n l) : ∃ t, l = '=' :: t := by
  obtain ⟨_, b, c, t, _, _, _, rfl⟩ := h
  exact ⟨_, rfl⟩

theorem Resets.start {al : Class} {n l : Text} (h : Resets al n l) : ∃ t, l = ':' :: t := by
  obtain ⟨_, b, _, rfl | rfl⟩ := h
  · exact ⟨_, rfl⟩
  · exact ⟨_, rfl⟩

/-- A title is not a delimiter. -/
theorem Titles.not_delim {n : Nat} {l : Text} (h : Titles n l) : delimOf l = none := by
  cases hd : delimOf l with
  | none => rfl
  | some e =>
    exfalso
    obtain ⟨kind, m, hm, rfl⟩ := delimOf_iff.mp hd
    obtain ⟨hn, b, c, t, hb0, hb, hc, hl⟩ := h
    rcases hm with ⟨x, k, b', hx, hk, hb', e⟩ | ⟨_, _, lang, b', _, _, _, e⟩
    · have hx' : (x ≠ ' ' ∧ x ≠ '\t') ∧ 0 < k := by
        simp only [table, List.mem_cons, List.not_mem_nil, or_false, Prod.mk.injEq] at hx
        rcases hx with ⟨rfl, rfl, rfl⟩ | ⟨rfl, rfl, rfl⟩ | ⟨rfl, rfl, rfl⟩ | ⟨rfl, rfl, rfl⟩ | ⟨rfl, rfl, rfl⟩ | ⟨rfl, rfl, rfl⟩ | ⟨rfl, rfl, rfl⟩ | ⟨rfl, rfl, rfl⟩ <;> decide
      -- after the leading characters, only blanks
      have hlast : ∀ (m : Nat) (b' : Text), Blanks b' → ∀ (n : Nat) (b : Text), b ≠ [] → Blanks b → ∀ y : Char, y ≠ ' ' ∧ y ≠ '\t' →
          List.replicate n y ++ b ++ c :: t = List.replicate m y ++ b' → False := by
        intro m b' hb' n
        induction n generalizing m with
        | zero =>
          intro b hb0 hb y hy h
          cases b with
          | nil => exact hb0 rfl
          | cons z zs =>
            cases m with
            | zero =>
              have : c ∈ b' := by
                have : z :: zs ++ c :: t = b' := by simpa using h
                rw [← this]; simp
              exact hc (fun d hd => by rw [List.mem_singleton.mp hd]; exact hb' c this)
            | succ m =>
              rw [List.replicate_succ] at h
              have h : z :: (zs ++ c :: t) = y :: (List.replicate m y ++ b') := h
              have hz := (List.cons.inj h).1
              have := hb z (by simp)
              rw [hz] at this
              rcases this with e | e
              · exact hy.1 e
              · exact hy.2 e
        | succ n ih =>
          intro b hb0 hb y hy h
          cases m with
          | zero =>
            rw [List.replicate_succ] at h
            have h : y :: (List.replicate n y ++ b ++ c :: t) = b' := by simpa using h
            have := hb' y (by rw [← h]; simp)
            rcases this with e | e
            · exact hy.1 e
            · exact hy.2 e
          | succ m =>
            rw [List.replicate_succ, List.replicate_succ] at h
            have h : y :: (List.replicate n y ++ b ++ c :: t) = y :: (List.replicate m y ++ b') := h
            exact ih m b hb0 hb y hy (List.cons.inj h).2
      have hxe : x = '=' := by
        rw [hl] at e
        cases m with
        | zero => omega
        | succ m =>
          rw [List.replicate_succ, List.replicate_succ] at e
          have e : '=' :: (List.replicate n '=' ++ b ++ c :: t) = x :: (List.replicate m x ++ b') := e
          exact (List.cons.inj e).1.symm
      subst hxe
      rw [hl] at e
      exact hlast _ _ hb' _ _ hb0 hb _ hx'.1 e
    · rw [hl] at e; cases e

end

/-! ### C50 -/

section
variable {σ : Type} {S : Sem σ} {elem : σ → Option RawElem} {sects within : σ → Bool}

/-- What a line that neither declares an attribute nor includes a file may be read as. -/
def Form (al : Class) (enabled inside : Bool) (l : Text) : RawElem → Prop
  | .reset n raw => raw = l ∧ ∃ nm, Resets al nm l ∧ n = String.ofList nm
  | .delim kind n raw => raw = l ∧ Delimits kind n l
  | .sect n raw => raw = l ∧ enabled = true ∧ inside = false ∧ ∃ k : Nat, n = k ∧ Titles k l
  | e => CondText al l e

theorem lineOf_iff (hS : RawCode S elem sects within) {se wb : Bool} {l : Text} (hl : NoEol l) {e : RawElem} : lineOf S se wb l = some e ↔ Form (alnum S) se wb l e := by
  have hc : alnum S ':' = false := hS.cls _ (by decide)
  have he : alnum S '!' = false := hS.cls _ (by decide)
  have sect : ∀ {e}, sectOf se wb l = some e ↔ se = true ∧ wb = false ∧ ∃ n : Nat, Titles n l ∧ e = .sect n l := by
    intro e
    unfold sectOf
    constructor
    · intro h
      cases hb : (se && !wb) with
      | false => rw [hb] at h; cases h
      | true =>
        rw [hb] at h
        have h : (pSection l).map (fun n : Nat => RawElem.sect (n : Int) l) = some e := h
        rw [Option.map_eq_some_iff] at h
        obtain ⟨n, hn, rfl⟩ := h
        simp only [Bool.and_eq_true, Bool.not_eq_true'] at hb
        exact ⟨hb.1, hb.2, n, (pSection_iff hl).mp hn, rfl⟩
    · rintro ⟨rfl, rfl, n, hn, rfl⟩
      rw [(pSection_iff hl).mpr hn]; rfl
  have noreset : ∀ {c : Char} {t : Text}, l = c :: t → c ≠ ':' → (pReset (alnum S) l).map (fun n => RawElem.reset (String.ofList n) l) = none := by
    intro c t e hcc
    cases hp : pReset (alnum S) l with
    | none => rfl
    | some n =>
      obtain ⟨u, hu⟩ := ((pReset_iff hc he).mp hp).start
      rw [e] at hu; cases hu; exact absurd rfl hcc
  have nocond : ∀ {c : Char} {t : Text}, l = c :: t → c ≠ 'i' → c ≠ 'e' → condOf S l = none := by
    intro c t e h1 h2
    cases hp : condOf S l with
    | none => rfl
    | some x =>
      obtain ⟨d, u, hu, hd⟩ := (condOf_iff.mp hp).start
      rw [e] at hu; cases hu
      rcases hd with rfl | rfl
      · exact absurd rfl h1
      · exact absurd rfl h2
  constructor
  · intro h
    unfold lineOf at h
    rcases or_inv h with h | ⟨_, h⟩
    · rw [Option.map_eq_some_iff] at h
      obtain ⟨n, hn, rfl⟩ := h
      exact ⟨rfl, n, (pReset_iff hc he).mp hn, rfl⟩
    rcases or_inv h with h | ⟨_, h⟩
    · have h := condOf_iff.mp h
      cases e with
      | decl => cases h
      | reset => cases h
      | incl => cases h
      | delim => cases h
      | sect => cases h
      | endif => exact h
      | cond c => exact h
    rcases or_inv h with h | ⟨_, h⟩
    · obtain ⟨kind, n, hd, rfl⟩ := delimOf_iff.mp h
      exact ⟨rfl, hd⟩
    · obtain ⟨h1, h2, n, hn, rfl⟩ := sect.mp h
      exact ⟨rfl, h1, h2, n, rfl, hn⟩
  · intro h
    unfold lineOf
    have conds : CondText (alnum S) l e → lineOf S se wb l = some e := by
      intro h
      obtain ⟨c, t, e1, hcc⟩ := h.start
      unfold lineOf
      rw [noreset e1 (by rcases hcc with rfl | rfl <;> decide), condOf_iff.mpr h]
      rfl
    cases e with
    | decl => cases h
    | incl => cases h
    | cond c => exact conds h
    | endif => exact conds h
    | reset n raw =>
      obtain ⟨rfl, nm, hr, rfl⟩ := h
      rw [(pReset_iff hc he).mpr hr]; rfl
    | delim kind n raw =>
      obtain ⟨rfl, hd⟩ := h
      obtain ⟨c, t, e1, hcc⟩ := hd.start
      have hno : c ≠ ':' ∧ c ≠ 'i' ∧ c ≠ 'e' := by
        refine ⟨?_, ?_, ?_⟩ <;> (rintro rfl; revert hcc; decide)
      rw [noreset e1 hno.1, nocond e1 hno.2.1 hno.2.2, delimOf_iff.mpr ⟨kind, n, hd, rfl⟩]
      rfl
    | sect n raw =>
      obtain ⟨rfl, h1, h2, k, rfl, ht⟩ := h
      obtain ⟨t, e1⟩ := ht.start
      rw [noreset e1 (by decide), nocond e1 (by decide) (by decide), ht.not_delim, sect.mpr ⟨h1, h2, k, ht, rfl⟩]
      rfl

theorem Form.not_decl {al : Class} {se wb : Bool} {l n : Text} {e : RawElem} (h0 : al ':' = false) (h1 : al '!' = false) (h : Form al se wb l e) : ¬ Declares al n l := by
  rintro ⟨rest, hn, rfl, _⟩
  cases e with
  | decl => cases h
  | incl => cases h
  | cond c => obtain ⟨c, t, e1, hcc⟩ := CondText.start (e := .cond c) h; cases e1; rcases hcc with h | h <;> exact absurd h (by decide)
  | endif => obtain ⟨c, t, e1, hcc⟩ := CondText.start (al := al) (e := .endif) h; cases e1; rcases hcc with h | h <;> exact absurd h (by decide)
  | delim kind m raw => obtain ⟨_, h⟩ := h; obtain ⟨c, t, e1, hcc⟩ := h.start; cases e1; exact absurd hcc (by decide)
  | sect m raw => obtain ⟨_, _, _, k, _, h⟩ := h; obtain ⟨t, e1⟩ := h.start; cases e1
  | reset m raw =>
    obtain ⟨_, nm, ⟨hnm, b, hb, e | e⟩, _⟩ := h
    · obtain ⟨x, xs, rfl, hx, _⟩ := hn
      have e : ':' :: x :: (xs ++ ':' :: rest) = ':' :: '!' :: (nm ++ ':' :: b) := by simpa using e
      have e : x = '!' := (List.cons.inj (List.cons.inj e).2).1
      rcases hx with hx | hx
      · rw [e, h1] at hx; cases hx
      · rw [e] at hx; exact absurd hx (by decide)
    · have e : n ++ ':' :: rest = nm ++ '!' :: (':' :: b) := by simpa using e
      have e1 := C35.pName_complete al n ':' rest hn ⟨h0, by decide⟩
      rw [e, C35.pName_complete al nm '!' (':' :: b) hnm ⟨h1, by decide⟩] at e1
      cases e1

theorem Form.not_incl {al : Class} {se wb : Bool} {l : Text} {e : RawElem} (h : Form al se wb l e) : ¬ Includes l := by
  rintro ⟨t, ht⟩
  have no : ∀ {k : Text}, k <+: l → ¬ k <+: "include::".toList → k.length ≤ 9 → False := by
    intro k hk hn hlen
    obtain ⟨u, hu⟩ := hk
    refine hn ?_
    have h1 : k <+: "include::".toList ++ t := ⟨u, hu.trans ht.symm⟩
    exact List.prefix_of_prefix_length_le h1 ⟨t, rfl⟩ (by simpa using hlen)
  cases e with
  | decl => cases h
  | incl => cases h
  | endif => obtain ⟨n, c, hd⟩ := h; exact no hd.start (by decide) (by decide)
  | delim kind m raw => obtain ⟨_, h⟩ := h; obtain ⟨c, t, e1, hcc⟩ := h.start; rw [e1] at ht; cases ht; exact absurd hcc (by decide)
  | sect m raw => obtain ⟨_, _, _, k, _, h⟩ := h; obtain ⟨t, e1⟩ := h.start; rw [e1] at ht; cases ht
  | reset m raw => obtain ⟨_, nm, h, _⟩ := h; obtain ⟨u, hu⟩ := h.start; rw [hu] at ht; cases ht
  | cond c =>
    cases c with
    | ifdef n c => obtain ⟨nm, ct, _, hd, _⟩ := h; exact no hd.start (by decide) (by decide)
    | ifndef n c => obtain ⟨nm, ct, _, hd, _⟩ := h; exact no hd.start (by decide) (by decide)
    | ifeval a op b => exact no (pIfeval_start (l := l) h).1 (by decide) (by decide)

/-- **C50**, except declarations and inclusions: what a line is read as is what its text says. -/
theorem read_iff (hS : RawCode S elem sects within) {st : Text} {s : σ} {l : Text} {r : Res σ} (hl : NoEol l)
    (h : Eval grammar S (.rule R.DocumentRawLine) st s l r) (e : RawElem) (hd : ∀ n v raw, e ≠ .decl n v raw) (hi : ∀ i, e ≠ .incl i) :
    read elem r = some e ↔ Form (alnum S) (sects s) (within s) l e := by
  constructor
  · intro he
    rcases raw_line hS hl h with ⟨n, v, _, e1⟩ | ⟨i, _, e1⟩ | e1
    · rw [e1] at he; cases he; exact absurd rfl (hd _ _ _)
    · rw [e1] at he; cases he; exact absurd rfl (hi _)
    · exact (lineOf_iff hS hl).mp (e1.symm.trans he)
  · intro hf
    rcases raw_line hS hl h with ⟨n, v, e1, _⟩ | ⟨i, e1, _⟩ | e1
    · exact absurd e1 (hf.not_decl (hS.cls _ (by decide)) (hS.cls _ (by decide)))
    · exact absurd e1 hf.not_incl
    · rw [e1]; exact (lineOf_iff hS hl).mpr hf

/-- The lines read as `ifdef`. -/
theorem ifdef_iff (hS : RawCode S elem sects within) {st : Text} {s : σ} {l : Text} {r : Res σ} (hl : NoEol l)
    (h : Eval grammar S (.rule R.DocumentRawLine) st s l r) (n : String) (c : Option Text) :
    read elem r = some (.cond (.ifdef n c)) ↔ ∃ name content, name ≠ [] ∧ Directive "ifdef::" name content l ∧ n = String.ofList name ∧ c = contentOf content :=
  read_iff hS hl h _ (fun _ _ _ e => nomatch e) (fun _ e => nomatch e)

/-- The lines read as `ifndef`. -/
theorem ifndef_iff (hS : RawCode S elem sects within) {st : Text} {s : σ} {l : Text} {r : Res σ} (hl : NoEol l)
    (h : Eval grammar S (.rule R.DocumentRawLine) st s l r) (n : String) (c : Option Text) :
    read elem r = some (.cond (.ifndef n c)) ↔ ∃ name content, name ≠ [] ∧ Directive "ifndef::" name content l ∧ n = String.ofList name ∧ c = contentOf content :=
  read_iff hS hl h _ (fun _ _ _ e => nomatch e) (fun _ e => nomatch e)

/-- The lines read as the end of a condition; the name and the content are ignored. -/
theorem endif_iff (hS : RawCode S elem sects within) {st : Text} {s : σ} {l : Text} {r : Res σ} (hl : NoEol l)
    (h : Eval grammar S (.rule R.DocumentRawLine) st s l r) :
    read elem r = some .endif ↔ ∃ name content, Directive "endif::" name content l :=
  read_iff hS hl h _ (fun _ _ _ e => nomatch e) (fun _ e => nomatch e)

/-- The lines read as the reset of an attribute. -/
theorem reset_iff (hS : RawCode S elem sects within) {st : Text} {s : σ} {l : Text} {r : Res σ} (hl : NoEol l)
    (h : Eval grammar S (.rule R.DocumentRawLine) st s l r) (n : String) (raw : Text) :
    read elem r = some (.reset n raw) ↔ raw = l ∧ ∃ name, Resets (alnum S) name l ∧ n = String.ofList name :=
  read_iff hS hl h _ (fun _ _ _ e => nomatch e) (fun _ e => nomatch e)

/-- The lines read as the delimiter of a block. -/
theorem delimiter_iff (hS : RawCode S elem sects within) {st : Text} {s : σ} {l : Text} {r : Res σ} (hl : NoEol l)
    (h : Eval grammar S (.rule R.DocumentRawLine) st s l r) (kind : String) (n : Nat) (raw : Text) :
    read elem r = some (.delim kind n raw) ↔ raw = l ∧ Delimits kind n l :=
  read_iff hS hl h _ (fun _ _ _ e => nomatch e) (fun _ e => nomatch e)

/-- The lines read as the title of a section: only in an included file, and outside blocks. -/
theorem title_iff (hS : RawCode S elem sects within) {st : Text} {s : σ} {l : Text} {r : Res σ} (hl : NoEol l)
    (h : Eval grammar S (.rule R.DocumentRawLine) st s l r) (n : Int) (raw : Text) :
    read elem r = some (.sect n raw) ↔ raw = l ∧ sects s = true ∧ within s = false ∧ ∃ k : Nat, n = k ∧ Titles k l :=
  read_iff hS hl h _ (fun _ _ _ e => nomatch e) (fun _ e => nomatch e)

/-- Only `:name:` followed by nothing or by a blank declares an attribute, the one with that name. -/
theorem declaration_only (hS : RawCode S elem sects within) {st : Text} {s : σ} {l : Text} {r : Res σ} (hl : NoEol l)
    (h : Eval grammar S (.rule R.DocumentRawLine) st s l r) {n : String} {v : Val} {raw : Text} (he : read elem r = some (.decl n v raw)) :
    raw = l ∧ ∃ name, Declares (alnum S) name l ∧ n = String.ofList name := by
  rcases raw_line hS hl h with ⟨nm, v', hd, e1⟩ | ⟨i, _, e1⟩ | e1
  · rw [e1] at he; cases he; exact ⟨rfl, nm, hd, rfl⟩
  · rw [e1] at he; cases he
  · cases (lineOf_iff hS hl).mp (e1.symm.trans he)

/-- Only `include::` includes files. -/
theorem inclusion_only (hS : RawCode S elem sects within) {st : Text} {s : σ} {l : Text} {r : Res σ} (hl : NoEol l)
    (h : Eval grammar S (.rule R.DocumentRawLine) st s l r) {i : Inclusion} (he : read elem r = some (.incl i)) : "include::".toList <+: l := by
  rcases raw_line hS hl h with ⟨nm, v', hd, e1⟩ | ⟨i', hi, e1⟩ | e1
  · rw [e1] at he; cases he
  · exact hi
  · cases (lineOf_iff hS hl).mp (e1.symm.trans he)

/-- Lines that do not begin as one of these are left alone. -/
theorem plain_line (hS : RawCode S elem sects within) {st : Text} {s : σ} {l : Text} {r : Res σ} (hl : NoEol l)
    (h : Eval grammar S (.rule R.DocumentRawLine) st s l r)
    (h1 : ∀ k ∈ ["include::", "ifdef::", "ifndef::", "ifeval::[", "endif::", "////", "====", "```", "----", "....", "++++", "____", "****", "=", ":"], ¬ k.toList <+: l) : read elem r = none := by
  cases he : read elem r with
  | none => rfl
  | some e =>
    exfalso
    have notprefix : ∀ {k : String} {u : Text}, k ∈ ["include::", "ifdef::", "ifndef::", "ifeval::[", "endif::", "////", "====", "```", "----", "....", "++++", "____", "****", "=", ":"] →
        l = k.toList ++ u → False := fun hk hu => h1 _ hk ⟨_, hu.symm⟩
    rcases raw_line hS hl h with ⟨nm, v', ⟨rest, _, e2, _⟩, _⟩ | ⟨i', hi, _⟩ | e1
    · exact notprefix (k := ":") (by decide) e2
    · exact h1 _ (by decide) hi
    · have hf := (lineOf_iff hS hl).mp (e1.symm.trans he)
      cases e with
      | decl => cases hf
      | incl => cases hf
      | endif => obtain ⟨n, c, hd⟩ := hf; exact h1 _ (by decide) hd.start
      | sect m raw => obtain ⟨_, _, _, k, _, hf⟩ := hf; obtain ⟨t, e1⟩ := hf.start; exact notprefix (k := "=") (by decide) e1
      | reset m raw => obtain ⟨_, nm, hf, _⟩ := hf; obtain ⟨u, hu⟩ := hf.start; exact notprefix (k := ":") (by decide) hu
      | cond c =>
        cases c with
        | ifdef n c => obtain ⟨nm, ct, _, hd, _⟩ := hf; exact h1 _ (by decide) hd.start
        | ifndef n c => obtain ⟨nm, ct, _, hd, _⟩ := hf; exact h1 _ (by decide) hd.start
        | ifeval a op b => exact h1 _ (by decide) (pIfeval_start hf).1
      | delim kind m raw =>
        obtain ⟨_, ⟨c, k, b, hm, hk, _, e2⟩ | ⟨_, _, lang, b, _, _, _, e2⟩⟩ := hf
        · have hr : l = List.replicate k c ++ (List.replicate (m - k) c ++ b) := by
            rw [← List.append_assoc, List.replicate_append_replicate, show k + (m - k) = m by omega, e2]
          simp only [table, List.mem_cons, List.not_mem_nil, or_false, Prod.mk.injEq] at hm
          rcases hm with ⟨rfl, rfl, rfl⟩ | ⟨rfl, rfl, rfl⟩ | ⟨rfl, rfl, rfl⟩ | ⟨rfl, rfl, rfl⟩ | ⟨rfl, rfl, rfl⟩ | ⟨rfl, rfl, rfl⟩ | ⟨rfl, rfl, rfl⟩ | ⟨rfl, rfl, rfl⟩
          · exact notprefix (k := "////") (by decide) hr
          · exact notprefix (k := "====") (by decide) hr
          · exact notprefix (k := "```") (by decide) hr
          · exact notprefix (k := "----") (by decide) hr
          · exact notprefix (k := "....") (by decide) hr
          · exact notprefix (k := "++++") (by decide) hr
          · exact notprefix (k := "____") (by decide) hr
          · exact notprefix (k := "****") (by decide) hr
        · rw [List.append_assoc] at e2
          exact notprefix (k := "```") (by decide) e2

end

end C50
end Verif
