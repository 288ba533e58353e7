import Verif.Props.RawForms
import Verif.Props.Inline
/-!
# C50 — Declarations of attributes

Which lines of the form `:name: value` declare the attribute, and which do not.
-/
namespace Verif
namespace C50
open Peg Grammar C49 RawLine Ifeval
open C48 (firstLine)
open C35 (NameText)

variable {σ : Type} {S : Sem σ} {elem : σ → Option RawElem} {sects within : σ → Bool}

/-- The characters that end a run of plain text in a value (parser.peg:349). -/
def isPlain (c : Char) : Bool := !(c == '\r' || c == '\n' || c == '<' || c == '>' || c == '&' || c == '{' || c == ' ')

theorem has_plain (x : Char) : (Cls.mk true ['\r', '\n', '<', '>', '&', '{', ' '] [] false false).has S.letter S.number x = isPlain x := by
  simp [Cls.has, isPlain, Bool.and_assoc]
  rfl

/-- The lookahead of an element of a value: is there only `\` or blanks before the end of the line? -/
theorem yields_stop {u : Text} (hu : NoEol u) :
    Yields grammar S (.scope (.seq (.opt (.lit ['\\'])) (.seq (.star (.rule R.Space)) (.rule R.EOL)))) u
      (if ((pLit ['\\'] u).getD u).all isBlank then some [] else none) := by
  refine yields_scope ?_
  have hk := yields_pLit (S := S) (l := ['\\']) (by decide) u
  cases hp : pLit ['\\'] u with
  | none =>
    rw [hp] at hk
    exact yields_seq (yields_opt_none hk) (yields_blanks_EOL hu)
  | some v =>
    rw [hp] at hk
    exact yields_seq (yields_opt_some hk) (yields_blanks_EOL (hu.suffix ⟨['\\'], (pLit_some hp).symm⟩))

/-- The value can be read up to its end: it neither ends with a blank or a backslash, nor has a brace. -/
structure Readable (u : Text) : Prop where
  line : NoEol u
  brace : '{' ∉ u
  ends : ∀ c, u.getLast? = some c → isBlank c = false ∧ c ≠ '\\'

theorem getLast_suffix {u v : Text} {c : Char} (h : v <:+ u) (hc : v.getLast? = some c) : u.getLast? = some c := by
  obtain ⟨p, rfl⟩ := h
  cases v with
  | nil => cases hc
  | cons x v => rw [List.getLast?_append, hc]; rfl

theorem Readable.suffix {u v : Text} (h : Readable u) (hv : v <:+ u) : Readable v :=
  ⟨h.line.suffix hv, fun hb => h.brace (hv.subset hb), fun c hc => h.ends c (getLast_suffix hv hc)⟩

theorem last_of_ne {u : Text} (h : u ≠ []) : ∃ c, u.getLast? = some c := ⟨u.getLast h, List.getLast?_eq_getLast_of_ne_nil h⟩

theorem getLast_all {p : Char → Bool} {u : Text} {c : Char} (h : u.all p = true) (hc : u.getLast? = some c) : p c = true :=
  List.all_eq_true.mp h c (List.mem_of_getLast? hc)

theorem element_sure (h381 : ∀ s st t, (S.pred 381 s st t).1 = true) {u : Text} (h : Readable u) (h0 : u ≠ []) :
    Sure grammar S (.rule R.AttributeDeclarationValueElement) u := by
  have hstop : Never grammar S (.scope (.seq (.opt (.lit ['\\'])) (.seq (.star (.rule R.Space)) (.rule R.EOL)))) u := by
    refine (yields_stop h.line).to (if_neg ?_)
    intro hb
    obtain ⟨c, hc⟩ := last_of_ne h0
    cases hp : pLit ['\\'] u with
    | none =>
      rw [hp] at hb
      have := getLast_all hb hc
      rw [(h.ends c hc).1] at this; cases this
    | some v =>
      rw [hp] at hb
      have hv : u = '\\' :: v := pLit_some hp
      by_cases hv0 : v = []
      · rw [hv, hv0] at hc
        cases hc
        exact absurd rfl (h.ends _ (by rw [hv, hv0]; rfl)).2
      · obtain ⟨d, hd⟩ := last_of_ne hv0
        have h1 := getLast_all hb hd
        have h2 := h.ends d (getLast_suffix ⟨['\\'], hv.symm⟩ hd)
        rw [h2.1] at h1; cases h1
  refine sure_rule (sure_act (sure_scope (sure_seq (yields_notP hstop) (sure_alt_right ?_))))
  cases u with
  | nil => exact absurd rfl h0
  | cons c u =>
    have hne := h.line c (by simp)
    cases hc : isPlain c with
    | true =>
      refine sure_alt_left (sure_act ?_)
      have := yields_plus_cls (S := S) (c := ⟨true, ['\r', '\n', '<', '>', '&', '{', ' '], [], false, false⟩) isPlain has_plain (c :: u)
      rw [List.takeWhile_cons_of_pos hc, if_neg (fun e => nomatch e)] at this
      exact this.sure
    | false =>
      refine sure_alt_right ?_
      have hc' : c = '<' ∨ c = '>' ∨ c = '&' ∨ c = ' ' := by
        have hb : c ≠ '{' := fun e => h.brace (by simp [e])
        simp only [isPlain, Bool.not_eq_false', Bool.or_eq_true, beq_iff_eq] at hc
        simp only [isEol, Bool.or_eq_false_iff, beq_eq_false_iff_ne] at hne
        rcases hc with (((((hc | hc) | hc) | hc) | hc) | hc) | hc
        · exact absurd hc hne.2
        · exact absurd hc hne.1
        · exact Or.inl hc
        · exact Or.inr (Or.inl hc)
        · exact Or.inr (Or.inr (Or.inl hc))
        · exact absurd hc hb
        · exact Or.inr (Or.inr (Or.inr hc))
      have special : ∀ {e : Exp}, Sure grammar S e (c :: u) → Sure grammar S (.act 383 (.scope (.seq (.pred 381) (.act 382 e)))) (c :: u) :=
        fun he => sure_act (sure_scope (sure_seq (yields_pred (fun s st => h381 s st _)) (sure_act he)))
      have lit : Sure grammar S (.lit [c]) (c :: u) := by
        refine (yields_lit.to (o' := some u) ?_).sure
        simp [matchLit]
      rcases hc' with rfl | rfl | rfl | rfl
      · exact sure_alt_left (sure_rule (special (sure_alt_left lit)))
      · exact sure_alt_left (sure_rule (special (sure_alt_right (sure_alt_left lit))))
      · exact sure_alt_left (sure_rule (special (sure_alt_right (sure_alt_right lit))))
      · exact sure_alt_right (sure_alt_left (yields_Space (by decide)).sure)

theorem element_nil : Never grammar S (.rule R.AttributeDeclarationValueElement) [] := by
  refine yields_rule (yields_act (yields_scope (never_seq (never_notP ?_))))
  exact (yields_stop (S := S) (u := []) (fun c hc => nomatch hc)).sure

/-- The elements of a value take all of it. -/
theorem elements_all (hP : C45.ChecksProgress S) (h381 : ∀ s st t, (S.pred 381 s st t).1 = true) (u : Text) (h : Readable u) :
    Yields grammar S (.star (.rule R.AttributeDeclarationValueElement)) u (some []) := by
  induction hl : u.length using Nat.strongRecOn generalizing u with
  | ind len ih =>
    intro st s r hr
    rcases eval_star.mp hr with ⟨s1, h1, rfl⟩ | ⟨s1, v, h1, h2⟩
    · by_cases h0 : u = []
      · subst h0; rfl
      · cases element_sure h381 h h0 _ _ _ h1
    · have hv := h1.suffix
      obtain ⟨n, h1⟩ := h1
      have hlt : v.length < u.length := by
        refine star_progress cert grammar S valid hP ?_ (e := .rule R.AttributeDeclarationValueElement) (by decide +kernel) h1
        intro e he n st s t s' u h
        rw [List.mem_singleton.mp he] at h
        exact cellLine_consumes h
      exact ih v.length (by omega) v (h.suffix hv) rfl _ _ _ h2

theorem value_all (hP : C45.ChecksProgress S) (h381 : ∀ s st t, (S.pred 381 s st t).1 = true) {u : Text} (h : Readable u) :
    Yields grammar S (.rule R.AttributeDeclarationValue) u (some []) := by
  refine yields_rule (yields_act (yields_scope (yields_seq (yields_rule (yields_act (elements_all hP h381 u h))) ?_)))
  exact yields_star_stop (yields_act (yields_scope (never_seq (yields_lit.to rfl))))

/-- The start of a declaration. -/
theorem yields_head {n : Text} (hn : NameText (alnum S) n) (hc : alnum S ':' = false) {e : Exp} {rest : Text} {o : Option Text}
    (h : Yields grammar S e rest o) : Yields grammar S (.seq (.lit [':']) (.seq (.rule R.AttributeName) (.seq (.lit [':']) e))) (':' :: (n ++ ':' :: rest)) o := by
  have h1 := yields_pLit (S := S) (l := [':']) (by decide) (':' :: (n ++ ':' :: rest))
  have h2 := yields_pName (S := S) (n ++ ':' :: rest)
  have h3 := yields_pLit (S := S) (l := [':']) (by decide) (':' :: rest)
  rw [pLit_singleton] at h1 h3
  rw [C35.pName_complete (alnum S) n ':' rest hn ⟨hc, by decide⟩] at h2
  exact yields_seq h1 (yields_seq h2 (yields_seq h3 h))

/-- `:name:` alone, or with blanks and a value that neither ends with a blank or a backslash nor has a brace. -/
def SimpleDeclaration (al : Class) (n l : Text) : Prop :=
  NameText al n ∧ (l = ':' :: (n ++ [':']) ∨ ∃ b v, b ≠ [] ∧ Blanks b ∧ '{' ∉ v ∧ (∀ c, v.getLast? = some c → c ≠ ' ' ∧ c ≠ '\t' ∧ c ≠ '\\') ∧ l = ':' :: (n ++ ':' :: (b ++ v)))

theorem blanks_isBlank {b : Text} (h : Blanks b) : ∀ c ∈ b, isBlank c = true := by
  intro c hc
  rcases h c hc with rfl | rfl <;> decide

theorem yields_simple (hP : C45.ChecksProgress S) (h381 : ∀ s st t, (S.pred 381 s st t).1 = true) (hc : alnum S ':' = false) {n l : Text} (hl : NoEol l)
    (h : SimpleDeclaration (alnum S) n l) : Yields grammar S (.rule R.AttributeDeclaration) l (some []) := by
  obtain ⟨hn, rfl | ⟨b, v, hb0, hb, hbr, hend, rfl⟩⟩ := h
  · refine yields_rule (yields_act (yields_scope (yields_head hn hc (yields_seq (yields_opt_none ?_) (yields_EOL.to rfl)))))
    exact yields_act (yields_scope (never_seq (yields_rule (yields_act (never_plus yields_cls_nil)))))
  · refine yields_rule (yields_act (yields_scope (yields_head hn hc (yields_seq (u := []) (yields_opt_some ?_) (yields_EOL.to rfl)))))
    have hsp : Yields grammar S (.rule R.Spaces) (b ++ v) (some (v.dropWhile isBlank)) := by
      have := yields_plus_cls (S := S) isBlank has_blank (b ++ v)
      cases b with
      | nil => exact absurd rfl hb0
      | cons x b =>
        have hx := blanks_isBlank hb x (by simp)
        rw [List.dropWhile_append_of_pos (blanks_isBlank hb)] at this
        rw [if_neg (by rw [List.cons_append, List.takeWhile_cons_of_pos hx]; exact (fun e => nomatch e))] at this
        exact yields_rule (yields_act this)
    refine yields_act (yields_scope (yields_seq hsp (value_all hP h381 ?_)))
    have hv : Readable v := by
      refine ⟨hl.suffix ⟨':' :: (n ++ ':' :: b), by simp⟩, hbr, ?_⟩
      intro c hc
      obtain ⟨h1, h2, h3⟩ := hend c hc
      exact ⟨by simp [isBlank, h1, h2], h3⟩
    exact hv.suffix (List.dropWhile_suffix _)

/-- **C50**: these lines declare the attribute. -/
theorem simple_declares (hS : RawCode S elem sects within) (hP : C45.ChecksProgress S) (h381 : ∀ s st t, (S.pred 381 s st t).1 = true)
    {st : Text} {s : σ} {l : Text} {r : Res σ} (hl : NoEol l) (h : Eval grammar S (.rule R.DocumentRawLine) st s l r) {n : Text} (hn : SimpleDeclaration (alnum S) n l) :
    ∃ v, read elem r = some (.decl (String.ofList n) v l) := by
  have hy := yields_simple hP h381 (hS.cls _ (by decide)) hl hn
  have hQ : Out S elem sects within (sects s) (within s) (.rule R.AttributeDeclaration) l
      (fun o => o ≠ none ∧ (o = none ∨ ∃ n v, Declares (alnum S) n l ∧ o = some (some (.decl (String.ofList n) v l)))) := by
    intro st s r h1 h2 h3
    have := out_declaration hS hl st s r h1 h2 h3
    refine ⟨⟨?_, this.1⟩, this.2⟩
    have hr := hy _ _ _ h3
    cases r with
    | fail s' => cases hr
    | ok s' u => exact (fun e => nomatch e)
  rcases raw_split hS hl hQ h with ⟨x, ⟨_, e | ⟨m, v, hd, e⟩⟩, hx⟩ | ⟨h, _⟩
  · cases e
  · cases e
    obtain ⟨rest, hm, e1, _⟩ := hd
    obtain ⟨rest', e2⟩ : ∃ rest', l = ':' :: (n ++ ':' :: rest') := by
      rcases hn.2 with e | ⟨b, v, _, _, _, _, e⟩
      · exact ⟨[], e⟩
      · exact ⟨_, e⟩
    have hc : alnum S ':' = false := hS.cls _ (by decide)
    have k1 := C35.pName_complete (alnum S) n ':' rest' hn.1 ⟨hc, by decide⟩
    have k2 := C35.pName_complete (alnum S) m ':' rest hm ⟨hc, by decide⟩
    rw [e2] at e1
    rw [(List.cons.inj e1).2, k2] at k1
    cases k1
    exact ⟨v, hx⟩
  · exact absurd rfl h.1

/-! ### Lines that look like declarations -/

/-- `z` is not consumed by the elements of a value. -/
structure Stuck (S : Sem σ) (z : Text) : Prop where
  some : ∃ c t, z = c :: t ∧ (c = ' ' ∨ c = '{')
  line : NoEol z
  never : Never grammar S (.rule R.AttributeDeclarationValueElement) z

theorem never_lit_head {c d : Char} {cs t : Text} (hd : '\uFFFD' ∉ d :: cs) (h : c ≠ d) : Never grammar S (.lit (d :: cs)) (c :: t) := by
  refine (yields_pLit (S := S) hd (c :: t)).to ?_
  simp [pLit, Ne.symm h]

theorem never_pred_seq {id : Nat} {e : Exp} {t : Text} (h : Never grammar S e t) : Never grammar S (.seq (.pred id) e) t := by
  intro st s r hr
  rcases eval_seq.mp hr with ⟨s1, h1, rfl⟩ | ⟨s1, v, h1, h2⟩
  · rfl
  · have h1 := eval_pred.mp h1
    unfold predRes at h1
    split at h1
    · cases h1; exact h _ _ _ h2
    · cases h1

theorem never_passthrough {u : Text} (h1 : ∀ t, u ≠ '+' :: t) (h2 : ¬ "pass:".toList <+: u) : Never grammar S (.rule R.InlinePassthrough) u := by
  have plus : ∀ cs : Text, '\uFFFD' ∉ '+' :: cs → Never grammar S (.lit ('+' :: cs)) u := by
    intro cs hcs
    cases u with
    | nil => exact (yields_pLit (S := S) hcs []).to rfl
    | cons c u => exact never_lit_head hcs (fun e => h1 u (by rw [e]))
  have pass : ∀ cs : Text, '\uFFFD' ∉ "pass:".toList ++ cs → Never grammar S (.lit ("pass:".toList ++ cs)) u := by
    intro cs hcs
    have hy := yields_pLit (S := S) hcs u
    cases hp : pLit ("pass:".toList ++ cs) u with
    | none => rw [hp] at hy; exact hy
    | some t =>
      refine absurd ⟨cs ++ t, ?_⟩ h2
      rw [pLit_some hp, List.append_assoc]
  have alts : Never grammar S (.alt (.rule R.TriplePlusPassthrough) (.alt (.rule R.SinglePlusPassthrough) (.rule R.PassthroughMacro))) u := by
    refine yields_alt_right ?_ (yields_alt_right ?_ ?_)
    · exact yields_rule (yields_act (yields_scope (never_seq (yields_rule (plus ['+', '+'] (by decide))))))
    · exact yields_rule (yields_act (yields_scope (never_seq (yields_rule (plus [] (by decide))))))
    · exact yields_rule (yields_alt_right (yields_act (yields_scope (never_seq (pass ['['] (by decide)))))
        (yields_act (yields_scope (never_seq (pass ['q', '['] (by decide))))))
  exact yields_rule (yields_act (yields_scope (never_pred_seq alts)))

theorem never_special {c : Char} {t : Text} (h : c ≠ '<' ∧ c ≠ '>' ∧ c ≠ '&') : Never grammar S (.rule R.SpecialCharacter) (c :: t) := by
  refine yields_rule (yields_act (yields_scope (never_pred_seq (yields_act (yields_alt_right ?_ (yields_alt_right ?_ ?_))))))
  · exact never_lit_head (by decide) h.1
  · exact never_lit_head (by decide) h.2.1
  · exact never_lit_head (by decide) h.2.2

theorem never_reference {c : Char} {t : Text} (h : c ≠ '\\' ∧ c ≠ '{') : Never grammar S (.rule R.AttributeReference) (c :: t) := by
  refine yields_rule (yields_act (yields_scope (never_pred_seq (yields_alt_right ?_ ?_))))
  · exact yields_rule (yields_alt_right (yields_act (yields_scope (never_seq (never_lit_head (by decide) h.1)))) (yields_act (yields_scope (never_seq (never_lit_head (by decide) h.2)))))
  · exact yields_rule (yields_alt_right (yields_rule (yields_act (yields_scope (never_seq (never_lit_head (by decide) h.2)))))
      (yields_rule (yields_act (yields_scope (never_seq (never_lit_head (by decide) h.2))))))

/-- A trailing space. -/
theorem stuck_space : Stuck S [' '] where
  some := ⟨_, _, rfl, Or.inl rfl⟩
  line := by intro c hc; rw [List.mem_singleton.mp hc]; rfl
  never := by
    refine yields_rule (yields_act (yields_scope (never_seq (never_notP ?_))))
    exact ((yields_stop (S := S) (u := [' ']) (by intro c hc; rw [List.mem_singleton.mp hc]; rfl)).to (o' := some []) rfl).sure

/-- A brace that opens no reference. -/
theorem stuck_brace (hsp : alnum S ' ' = false) {x : Text} (hx : NoEol x) (h : x = [] ∨ ∃ t, x = ' ' :: t) : Stuck S ('{' :: x) where
  some := ⟨_, _, rfl, Or.inr rfl⟩
  line := by
    intro c hc
    rcases List.mem_cons.mp hc with rfl | hc
    · rfl
    · exact hx c hc
  never := by
    have hname : Never grammar S (.rule R.AttributeName) x := by
      refine (yields_pName (S := S) x).to ?_
      rcases h with rfl | ⟨t, rfl⟩
      · rfl
      · unfold pName
        dsimp only
        rw [if_neg (by rw [hsp]; decide)]
        rfl
    have hlit : Yields grammar S (.lit ['{']) ('{' :: x) (some x) := by
      refine yields_lit.to ?_
      simp [matchLit]
    have hcounter : ∀ cs, '\uFFFD' ∉ '{' :: 'c' :: cs → Never grammar S (.lit ('{' :: 'c' :: cs)) ('{' :: x) := by
      intro cs hcs
      refine (yields_pLit (S := S) hcs ('{' :: x)).to ?_
      rcases h with rfl | ⟨t, rfl⟩ <;> rfl
    have hnp : Yields grammar S (.notP (.scope (.seq (.opt (.lit ['\\'])) (.seq (.star (.rule R.Space)) (.rule R.EOL))))) ('{' :: x) (some ('{' :: x)) := by
      refine yields_notP ((yields_stop (S := S) (u := '{' :: x) ?_).to (if_neg ?_))
      · intro c hc
        rcases List.mem_cons.mp hc with rfl | hc
        · rfl
        · exact hx c hc
      · show ¬ (('{' :: x).all isBlank = true)
        rw [List.all_cons]
        exact (fun e => nomatch e)
    refine yields_rule (yields_act (yields_scope (yields_seq hnp (yields_alt_right ?_ (yields_alt_right ?_ (yields_alt_right ?_ (yields_alt_right ?_ ?_)))))))
    · exact never_passthrough (fun t e => by cases e) (by rintro ⟨t, e⟩; cases e)
    · exact yields_act (never_plus (yields_cls_no (by rw [has_plain]; rfl)))
    · exact never_special ⟨by decide, by decide, by decide⟩
    · exact never_Space rfl
    · refine yields_rule (yields_act (yields_scope (never_pred_seq (yields_alt_right (yields_rule (yields_alt_right ?_ ?_)) (yields_rule (yields_alt_right ?_ ?_))))))
      · exact yields_act (yields_scope (never_seq (never_lit_head (by decide) (by decide))))
      · exact yields_act (yields_scope (yields_seq hlit (never_seq hname)))
      · exact yields_rule (yields_act (yields_scope (never_seq (hcounter _ (by decide)))))
      · exact yields_rule (yields_act (yields_scope (never_seq (hcounter _ (by decide)))))

/-- The text before: no passthrough, no reference. -/
structure Before (w : Text) : Prop where
  line : NoEol w
  none : '{' ∉ w ∧ '+' ∉ w ∧ ':' ∉ w

theorem Before.suffix {w v : Text} (h : Before w) (hv : v <:+ w) : Before v :=
  ⟨h.line.suffix hv, fun hb => h.none.1 (hv.subset hb), fun hb => h.none.2.1 (hv.subset hb), fun hb => h.none.2.2 (hv.subset hb)⟩

theorem element_before {z : Text} (hz : Stuck S z) {w : Text} (hw : Before w) {st : Text} {s s' : σ} {u : Text}
    (h : Eval grammar S (.rule R.AttributeDeclarationValueElement) st s (w ++ z) (.ok s' u)) : ∃ v, v <:+ w ∧ u = v ++ z := by
  obtain ⟨c0, t0, hz0, hc0⟩ := hz.some
  cases w with
  | nil => cases hz.never _ _ _ h
  | cons c w =>
    have hb : c ≠ '{' ∧ c ≠ '+' ∧ c ≠ ':' := ⟨fun e => hw.none.1 (by simp [e]), fun e => hw.none.2.1 (by simp [e]), fun e => hw.none.2.2 (by simp [e])⟩
    have hpass : Never grammar S (.rule R.InlinePassthrough) (c :: w ++ z) := by
      refine never_passthrough (fun t e => by cases e; exact hb.2.1 rfl) ?_
      intro hp
      -- the colon would be in `w`, or the first character of `z` in `pass:`
      have hlen : c :: w = ['p', 'a', 's', 's', ':'].take (c :: w).length ∨ "pass:".toList <+: c :: w := by
        rcases Nat.le_total (c :: w).length "pass:".toList.length with hle | hle
        · left
          have h1 : c :: w <+: c :: w ++ z := ⟨z, rfl⟩
          have := List.prefix_of_prefix_length_le h1 hp hle
          exact List.prefix_iff_eq_take.mp this
        · right
          exact List.prefix_of_prefix_length_le hp ⟨z, rfl⟩ hle
      rcases hlen with e | ⟨t, e⟩
      · generalize hm : (c :: w).length = m at e
        rw [e, hz0] at hp
        have hm4 : m ≤ 4 := by
          by_cases h5 : 5 ≤ m
          · rw [List.take_of_length_le (by simpa using h5)] at e
            exact absurd (by rw [e]; decide) hw.none.2.2
          · omega
        obtain ⟨t, ht⟩ := hp
        have : m = 0 ∨ m = 1 ∨ m = 2 ∨ m = 3 ∨ m = 4 := by omega
        rcases this with rfl | rfl | rfl | rfl | rfl
        all_goals (simp at ht; rcases hc0 with rfl | rfl <;> simp at ht)
      · exact hw.none.2.2 (by rw [← e]; simp)
    have h := eval_rule.mp h
    rcases eval_act.mp h with ⟨_, _, e⟩ | ⟨s1, v, h1, e⟩
    · cases e
    cases e
    rcases eval_scope.mp h1 with ⟨_, _, e⟩ | ⟨s2, v, h2, e⟩
    · cases e
    cases e
    obtain ⟨s3, t1, k1, h3⟩ := last h2
    have ht1 : t1 = c :: w ++ z := by
      rcases eval_notP.mp k1 with ⟨_, _, e⟩ | ⟨_, _, _, e⟩
      · cases e; rfl
      · cases e
    subst ht1
    rcases eval_alt.mp h3 with ⟨_, _, h4⟩ | ⟨_, _, h4, _⟩
    swap
    · cases hpass _ _ _ h4
    have hplain := yields_plus_cls (S := S) (c := ⟨true, ['\r', '\n', '<', '>', '&', '{', ' '], [], false, false⟩) isPlain has_plain (c :: w ++ z)
    cases hc : isPlain c with
    | true =>
      have hy := yields_alt_left (b := .alt (.rule R.SpecialCharacter) (.alt (.rule R.Space) (.rule R.AttributeReference))) (yields_act (id := 58)
        ((hplain.to (if_neg (by rw [List.cons_append, List.takeWhile_cons_of_pos hc]; exact (fun e => nomatch e))))))
      have hu : some u = some ((c :: w ++ z).dropWhile isPlain) := hy _ _ _ h4
      refine ⟨(c :: w).dropWhile isPlain, List.dropWhile_suffix _, ?_⟩
      rw [Option.some.inj hu, hz0]
      have hz1 : isPlain c0 = false := by rcases hc0 with rfl | rfl <;> rfl
      clear hu hy hplain
      generalize c :: w = y
      induction y with
      | nil => rw [List.nil_append, List.dropWhile_cons_of_neg (by simp [hz1])]; rfl
      | cons d y ih =>
        cases hd : isPlain d with
        | true => rw [List.cons_append, List.dropWhile_cons_of_pos hd, List.dropWhile_cons_of_pos hd]; exact ih
        | false => rw [List.cons_append, List.dropWhile_cons_of_neg (by simp [hd]), List.dropWhile_cons_of_neg (by simp [hd])]; rfl
    | false =>
      have hnp : Never grammar S (.act 58 (.plus (.cls ⟨true, ['\r', '\n', '<', '>', '&', '{', ' '], [], false, false⟩))) (c :: w ++ z) :=
        yields_act (never_plus (yields_cls_no (by rw [has_plain, hc])))
      have hnbs : c ≠ '\\' := by rintro rfl; cases hc
      rcases eval_alt.mp h4 with ⟨_, _, h5⟩ | ⟨_, _, h5, _⟩
      swap
      · cases hnp _ _ _ h5
      rcases eval_alt.mp h5 with ⟨_, _, h6⟩ | ⟨_, _, h6, e6⟩
      · rcases eval_alt.mp h6 with ⟨_, _, h7⟩ | ⟨_, _, h7, e7⟩
        · cases never_reference ⟨hnbs, hb.1⟩ _ _ _ h7
        · cases e7
          cases hbl : isBlank c with
          | true =>
            have := yields_Space (S := S) (t := w ++ z) hbl _ _ _ h7
            exact ⟨w, ⟨[c], rfl⟩, Option.some.inj this⟩
          | false => cases never_Space (S := S) (t := w ++ z) hbl _ _ _ h7
      · cases e6
        have h6 := eval_rule.mp h6
        rcases eval_act.mp h6 with ⟨_, _, e⟩ | ⟨_, _, h7, e⟩
        · cases e
        cases e
        rcases eval_scope.mp h7 with ⟨_, _, e⟩ | ⟨_, _, h8, e⟩
        · cases e
        cases e
        obtain ⟨s9, t9, k9, h9⟩ := last h8
        have ht9 : t9 = c :: w ++ z := by
          have k9 := eval_pred.mp k9
          unfold predRes at k9
          split at k9
          · cases k9; rfl
          · cases k9
        subst ht9
        rcases eval_act.mp h9 with ⟨_, _, e⟩ | ⟨_, _, h10, e⟩
        · cases e
        cases e
        have lit : ∀ {d : Char} {st s s' u}, d ≠ '\uFFFD' → Eval grammar S (.lit [d]) st s (c :: w ++ z) (.ok s' u) → u = w ++ z := by
          intro d st s s' u hd h
          have := yields_pLit (S := S) (l := [d]) (by simpa using Ne.symm hd) (c :: w ++ z) _ _ _ h
          rw [pLit_singleton] at this
          have this : some u = if d = c then some (w ++ z) else none := this
          split at this
          · exact Option.some.inj this
          · cases this
        rcases eval_alt.mp h10 with ⟨_, _, h11⟩ | ⟨_, _, h11, e⟩
        · rcases eval_alt.mp h11 with ⟨_, _, h12⟩ | ⟨_, _, h12, e⟩
          · exact ⟨w, ⟨[c], rfl⟩, lit (by decide) h12⟩
          · cases e; exact ⟨w, ⟨[c], rfl⟩, lit (by decide) h12⟩
        · cases e; exact ⟨w, ⟨[c], rfl⟩, lit (by decide) h11⟩

/-- The elements of a value stop at the latest there. -/
theorem elements_before {z : Text} (hz : Stuck S z) {w : Text} (hw : Before w) {st : Text} {s s' : σ} {u : Text}
    (h : Eval grammar S (.star (.rule R.AttributeDeclarationValueElement)) st s (w ++ z) (.ok s' u)) : ∃ v, v <:+ w ∧ u = v ++ z := by
  obtain ⟨n, h⟩ := h
  induction n generalizing w s with
  | zero => cases h
  | succ n ih =>
    unfold run at h
    cases h1 : run grammar S n (.rule R.AttributeDeclarationValueElement) st s (w ++ z) with
    | none => rw [h1] at h; cases h
    | some y =>
      rw [h1] at h
      cases y with
      | fail s1 => cases h; exact ⟨w, List.suffix_refl _, rfl⟩
      | ok s1 v =>
        obtain ⟨v', hv', rfl⟩ := element_before hz hw ⟨_, h1⟩
        obtain ⟨v'', hv'', e⟩ := ih (hw.suffix hv') h
        exact ⟨v'', hv''.trans hv', e⟩

/-- A line that looks like a declaration: `:name:`, blanks, text and something that stops the value. -/
theorem never_declaration (hc : alnum S ':' = false) {n b w z : Text} (hn : NameText (alnum S) n) (hb0 : b ≠ []) (hb : Blanks b) (hw : Before w) (hz : Stuck S z)
    (hw0 : ∃ c t, w ++ z = c :: t ∧ isBlank c = false) : Never grammar S (.rule R.AttributeDeclaration) (':' :: (n ++ ':' :: (b ++ (w ++ z)))) := by
  have hline : NoEol (w ++ z) := by
    intro c hc
    rcases List.mem_append.mp hc with h | h
    · exact hw.line c h
    · exact hz.line c h
  refine yields_rule (yields_act (yields_scope (yields_head hn hc ?_)))
  have hsp : Yields grammar S (.rule R.Spaces) (b ++ (w ++ z)) (some (w ++ z)) := by
    have := yields_plus_cls (S := S) isBlank has_blank (b ++ (w ++ z))
    cases b with
    | nil => exact absurd rfl hb0
    | cons x b =>
      have hx := blanks_isBlank hb x (by simp)
      rw [List.dropWhile_append_of_pos (blanks_isBlank hb)] at this
      rw [if_neg (by rw [List.cons_append, List.takeWhile_cons_of_pos hx]; exact (fun e => nomatch e))] at this
      obtain ⟨c, t, e, hcb⟩ := hw0
      have e2 : (w ++ z).dropWhile isBlank = w ++ z := by rw [e, List.dropWhile_cons_of_neg (by simp [hcb])]
      rw [e2] at this
      exact yields_rule (yields_act this)
  -- the value does not reach the end of the line
  have value : ∀ {st : Text} {s s' : σ} {u : Text}, Eval grammar S (.rule R.AttributeDeclarationValue) st s (w ++ z) (.ok s' u) → ∃ v, v <:+ w ∧ u = v ++ z := by
    intro st s s' u h
    have h := eval_rule.mp h
    rcases eval_act.mp h with ⟨_, _, e⟩ | ⟨s1, v, h1, e⟩
    · cases e
    cases e
    rcases eval_scope.mp h1 with ⟨_, _, e⟩ | ⟨s2, v, h2, e⟩
    · cases e
    cases e
    obtain ⟨s3, t1, k1, h3⟩ := last h2
    have k1 := eval_rule.mp k1
    rcases eval_act.mp k1 with ⟨_, _, e⟩ | ⟨s4, v, k2, e⟩
    · cases e
    cases e
    obtain ⟨v', hv', rfl⟩ := elements_before hz hw k2
    have hl' : NoEol (v' ++ z) := hline.suffix (by obtain ⟨p, rfl⟩ := hv'; exact ⟨p, by simp⟩)
    have : Yields grammar S (.star (.act 55 (.scope (.seq (.lit ['\\']) (.seq (.rule R.Newline) (.seq (.star (.rule R.Space)) (.rule R.AttributeDeclarationValueElements))))))) (v' ++ z) (some (v' ++ z)) := by
      refine yields_star_stop (yields_act (yields_scope ?_))
      have hk := yields_pLit (S := S) (l := ['\\']) (by decide) (v' ++ z)
      cases hp : pLit ['\\'] (v' ++ z) with
      | none => rw [hp] at hk; exact never_seq hk
      | some x =>
        rw [hp] at hk
        refine yields_seq hk (never_seq (yields_Newline.to ?_))
        have hx : NoEol x := hl'.suffix ⟨['\\'], (pLit_some hp).symm⟩
        cases x with
        | nil => rfl
        | cons d x =>
          have := hx d (by simp)
          simp only [isEol, Bool.or_eq_false_iff, beq_eq_false_iff_ne] at this
          rw [newline_lit]
          simp [matchLit, Ne.symm this.1, Ne.symm this.2]
    have e := this _ _ _ h3
    exact ⟨v', hv', Option.some.inj e⟩
  obtain ⟨c0, t0, hz0, hc0⟩ := hz.some
  intro st s r h
  rcases eval_seq.mp h with ⟨s1, _, rfl⟩ | ⟨s1, u, h1, h2⟩
  · rfl
  · have hu : ∃ v, u = v ++ z := by
      rcases eval_opt.mp h1 with ⟨s2, h3, e⟩ | ⟨s2, v, h3, e⟩
      · cases e; exact ⟨b ++ w, by simp⟩
      · cases e
        rcases eval_act.mp h3 with ⟨_, _, e⟩ | ⟨_, _, h4, e⟩
        · cases e
        cases e
        rcases eval_scope.mp h4 with ⟨_, _, e⟩ | ⟨_, _, h5, e⟩
        · cases e
        cases e
        obtain ⟨s6, t6, k6, h6⟩ := last h5
        have := hsp _ _ _ k6
        cases this
        obtain ⟨v, _, e⟩ := value h6
        exact ⟨v, e⟩
    obtain ⟨v, rfl⟩ := hu
    have hs : v ++ z <:+ ':' :: (n ++ ':' :: (b ++ (w ++ z))) := by
      have := h1.suffix
      exact this.trans ⟨':' :: (n ++ [':']), by simp⟩
    cases r with
    | fail s' => rfl
    | ok s' x =>
      have hbl : NoEol (b ++ (w ++ z)) := by
        intro c hc
        rcases List.mem_append.mp hc with h | h
        · rcases hb c h with rfl | rfl <;> rfl
        · exact hline c h
      have := EOL_line hbl h1.suffix h2
      have := this.1
      rw [hz0] at this
      simp at this

/-- A line that looks like a declaration, but declares nothing. -/
theorem nothing_declared (hS : RawCode S elem sects within) {st : Text} {s : σ} {n b w z : Text} {r : Res σ} (hn : NameText (alnum S) n) (hnl : NoEol n) (hb0 : b ≠ []) (hb : Blanks b)
    (hw : Before w) (hz : Stuck S z) (hw0 : ∃ c t, w ++ z = c :: t ∧ isBlank c = false)
    (h : Eval grammar S (.rule R.DocumentRawLine) st s (':' :: (n ++ ':' :: (b ++ (w ++ z)))) r) : read elem r = none := by
  have hl : NoEol (':' :: (n ++ ':' :: (b ++ (w ++ z)))) := by
    intro c hc
    simp only [List.mem_cons, List.mem_append] at hc
    rcases hc with rfl | hc | rfl | hc | hc | hc
    · rfl
    · exact hnl c hc
    · rfl
    · rcases hb c hc with rfl | rfl <;> rfl
    · exact hw.line c hc
    · exact hz.line c hc
  have hnev := never_declaration (S := S) (hS.cls _ (by decide)) hn hb0 hb hw hz hw0
  have hQ : Out S elem sects within (sects s) (within s) (.rule R.AttributeDeclaration) (':' :: (n ++ ':' :: (b ++ (w ++ z)))) (fun o => o = none) := by
    intro st s r _ _ h
    have := hnev _ _ _ h
    cases r with
    | fail s' => exact ⟨rfl, Or.inl rfl⟩
    | ok s' u => cases this
  rcases raw_split hS hl hQ h with ⟨x, e, _⟩ | ⟨_, ⟨i, ⟨t, e⟩, _⟩ | e⟩
  · cases e
  · cases e
  · rw [e]
    cases hf : lineOf S (sects s) (within s) (':' :: (n ++ ':' :: (b ++ (w ++ z)))) with
    | none => rfl
    | some x =>
      refine absurd ?_ (((lineOf_iff hS hl).mp hf).not_decl (n := n) (hS.cls _ (by decide)) (hS.cls _ (by decide)))
      refine ⟨_, hn, rfl, Or.inr ?_⟩
      cases b with
      | nil => exact absurd rfl hb0
      | cons d b => exact ⟨d, _, rfl, blanks_isBlank hb d (by simp)⟩

/-- **Finding** (C50): a space at the end of the line, and the attribute is not declared. -/
theorem finding_trailing_space (hS : RawCode S elem sects within) {st : Text} {s : σ} {n v : Text} {r : Res σ} (hn : NameText (alnum S) n) (hnl : NoEol n)
    (hv : NoEol v) (hv' : '{' ∉ v ∧ '+' ∉ v ∧ ':' ∉ v) (h0 : ∃ c t, v = c :: t ∧ ¬ Blanks [c])
    (h : Eval grammar S (.rule R.DocumentRawLine) st s (":".toList ++ n ++ ": ".toList ++ v ++ " ".toList) r) : read elem r = none := by
  have e : ":".toList ++ n ++ ": ".toList ++ v ++ " ".toList = ':' :: (n ++ ':' :: ([' '] ++ (v ++ [' ']))) := by simp
  rw [e] at h
  refine nothing_declared hS hn hnl (by decide) (by intro c hc; exact Or.inl (List.mem_singleton.mp hc)) ⟨hv, hv'⟩ stuck_space ?_ h
  obtain ⟨c, t, rfl, hc⟩ := h0
  refine ⟨c, _, rfl, ?_⟩
  cases hb : isBlank c with
  | false => rfl
  | true =>
    refine absurd ?_ hc
    intro d hd
    rw [List.mem_singleton.mp hd]
    simpa [isBlank, or_comm] using hb

/-- **Finding** (C50): a brace that opens no reference, and the attribute is not declared. -/
theorem finding_brace (hS : RawCode S elem sects within) {st : Text} {s : σ} {n v x : Text} {r : Res σ} (hn : NameText (alnum S) n) (hnl : NoEol n)
    (hv : NoEol v) (hv' : '{' ∉ v ∧ '+' ∉ v ∧ ':' ∉ v) (h0 : ∀ c t, v = c :: t → ¬ Blanks [c]) (hx : NoEol x) (hx' : x = [] ∨ ∃ t, x = ' ' :: t)
    (h : Eval grammar S (.rule R.DocumentRawLine) st s (":".toList ++ n ++ ": ".toList ++ v ++ "{".toList ++ x) r) : read elem r = none := by
  have e : ":".toList ++ n ++ ": ".toList ++ v ++ "{".toList ++ x = ':' :: (n ++ ':' :: ([' '] ++ (v ++ '{' :: x))) := by simp
  rw [e] at h
  refine nothing_declared hS hn hnl (by decide) (by intro c hc; exact Or.inl (List.mem_singleton.mp hc)) ⟨hv, hv'⟩ (stuck_brace (hS.cls _ (by decide)) hx hx') ?_ h
  cases v with
  | nil => exact ⟨'{', x, rfl, rfl⟩
  | cons c t =>
    refine ⟨c, _, rfl, ?_⟩
    cases hb : isBlank c with
    | false => rfl
    | true =>
      refine absurd ?_ (h0 c t rfl)
      intro d hd
      rw [List.mem_singleton.mp hd]
      simpa [isBlank, or_comm] using hb

/-! ### The hypotheses are met -/

/-- Letters and digits. -/
def rawAlnum (c : Char) : Bool := c.isAlpha || c.isDigit

/-- What the action `id` returns on the text `p` (with a constant for the parts that are not specified). -/
def rawAct (id : Nat) (p : Text) (old : Option RawElem) : Option RawElem :=
  if id = 6 then (pCond "ifdef::".toList false p).map (fun x => .cond (.ifdef (String.ofList x.1) x.2))
  else if id = 7 then (pCond "ifndef::".toList false p).map (fun x => .cond (.ifndef (String.ofList x.1) x.2))
  else if id = 9 then (pIfeval rawAlnum p).map .cond
  else if id = 23 then some .endif
  else if id = 60 ∨ id = 61 then (pReset rawAlnum p).map (fun n => .reset (String.ofList n) p)
  else if id = 124 then some (.delim "fenced" 3 p)
  else if id = 5 then some (.sect (leading '=' p - 1 : Nat) p)
  else if id = 53 then ((pLit ":".toList p).bind (pName rawAlnum)).map (fun x => .decl (String.ofList x.1) (.other 0) p)
  else if id = 26 then some (.incl ⟨[.lit p], none, none, none⟩)
  else match delimActs.find? (·.1 == id) with
    | some x => some (.delim x.2.2 (leading x.2.1 p) p)
    | none => old

/-- The element, whether sections are enabled, whether in a block. -/
def rawSem : Sem (Option RawElem × Bool × Bool) where
  letter c := c.isAlpha
  number c := c.isDigit
  pred id s st t :=
    (if id = 1 then s.2.1 else if id = 2 then !s.2.2 else if id = 4 then decide (leading '=' (st.take (st.length - t.length)) ≤ 6)
      else if id = 381 then true else decide (t.length < st.length), s)
  state _ s _ _ := s
  act id s t _ := (rawAct id t s.1, s.2)
  restore a _ := a

theorem rawSem_code : RawCode rawSem Prod.fst (fun s => s.2.1) (fun s => s.2.2) where
  cls := by
    have : ∀ c ∈ "/=`-.+_*:! ,".toList, (c.isAlpha || c.isDigit) = false := by decide
    exact this
  enabled _ _ _ := rfl
  outside _ _ _ := rfl
  level s p t := by
    show decide (leading '=' ((p ++ t).take ((p ++ t).length - t.length)) ≤ 6) = _
    rw [take_consumed]
  pred_keeps _ _ _ _ := ⟨rfl, rfl⟩
  act_keeps _ _ _ _ := ⟨rfl, rfl⟩
  state_keeps _ _ _ _ _ := ⟨rfl, rfl⟩
  restore_keeps _ _ _ _ := ⟨rfl, rfl⟩
  back _ _ := rfl
  passes _ _ _ := ⟨rfl, rfl⟩
  ifdef _ _ := rfl
  ifndef _ _ := rfl
  ifeval _ _ := rfl
  endif _ _ := rfl
  reset id hid s p := by
    simp only [List.mem_cons, List.not_mem_nil, or_false] at hid
    rcases hid with rfl | rfl <;> rfl
  delim x hx s p := by
    simp only [delimActs, List.mem_cons, List.not_mem_nil, or_false] at hx
    rcases hx with rfl | rfl | rfl | rfl | rfl | rfl | rfl | rfl <;> rfl
  code _ _ := rfl
  sect _ _ := rfl
  decl _ _ := ⟨.other 0, rfl⟩
  incl _ p := ⟨⟨[.lit p], none, none, none⟩, rfl⟩

theorem rawSem_progress : C45.ChecksProgress rawSem := by
  intro id hid s st t h
  simp only [List.mem_cons, List.not_mem_nil, or_false] at hid
  rcases hid with rfl | rfl | rfl | rfl <;> exact of_decide_eq_true h

theorem rawSem_special : ∀ s st t, (rawSem.pred 381 s st t).1 = true := fun _ _ _ => rfl

/-- What the line is read as, in an included file. -/
def readLine (l : String) : Option (Option RawElem) := (run grammar rawSem 60 (.rule R.DocumentRawLine) l.toList (none, true, false) l.toList).map (read Prod.fst)

example : readLine "ifdef::a,b[]" = some (some (.cond (.ifdef "a,b" none))) := by decide +kernel
example : readLine "ifndef::x[some text]\t" = some (some (.cond (.ifndef "x" (some "some text".toList)))) := by decide +kernel
example : readLine "endif::[]" = some (some .endif) := by decide +kernel
example : readLine "ifeval::[\"{x}\" == 1]" = some (some (.cond (.ifeval (.ref "x") .eq (.lit (.int 1))))) := by decide +kernel
example : readLine ":x!:" = some (some (.reset "x" ":x!:".toList)) := by decide +kernel
example : readLine "````` " = some (some (.delim "fenced" 5 "````` ".toList)) := by decide +kernel
example : readLine "```go" = some (some (.delim "fenced" 3 "```go".toList)) := by decide +kernel
example : readLine "== Title" = some (some (.sect 1 "== Title".toList)) := by decide +kernel
example : readLine ":x: a < b" = some (some (.decl "x" (.other 0) ":x: a < b".toList)) := by decide +kernel
example : readLine ":x: a < b " = some none := by decide +kernel
example : readLine ":x: a { b" = some none := by decide +kernel
example : readLine "include::a.adoc[]" = some (some (.incl ⟨[.lit "include::a.adoc[]".toList], none, none, none⟩)) := by decide +kernel
example : readLine "some text" = some none := by decide +kernel
example : SimpleDeclaration rawAlnum "x".toList ":x: a < b".toList :=
  ⟨⟨'x', [], rfl, Or.inl (by decide), (fun _ h => nomatch h)⟩, Or.inr ⟨[' '], "a < b".toList, by decide, by intro c hc; exact Or.inl (List.mem_singleton.mp hc), by decide,
    by intro c hc; cases hc; decide, rfl⟩⟩

end C50
end Verif
