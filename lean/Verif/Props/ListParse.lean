import Verif.Props.Heading
import Verif.Spec.Listed

/-!
# C64 — Lists in the grammar
-/
namespace Verif
namespace C64
open Peg Grammar Actions FragmentLoop Listed
open C59 (Code Cut alnum)
open C49 (LenCode)
open Paragraphs (Line)
open Walk (Any)

variable {σ : Type} {S : Sem σ} {A : Peg.Code σ} {t r u z : Text}

/-- What is assumed of the code of the rules for lists: at most five dots (parser.peg:1583-1586), at most five asterisks (parser.peg:1632-1635), and at least two colons
(parser.peg:1670-1673). -/
structure ListCode (S : Sem σ) : Prop where
  dots : ∀ s k t, t.head? ≠ some '.' → (S.pred 260 s (List.replicate k '.' ++ t) t).1 = decide (k ≤ 5)
  dash : ∀ s w t, (∀ c ∈ w, isBlank c = true) → (S.pred 270 s (w ++ '-' :: t) t).1 = true
  stars : ∀ s w k t, (∀ c ∈ w, isBlank c = true) → t.head? ≠ some '*' → (S.pred 270 s (w ++ (List.replicate k '*' ++ t)) t).1 = decide (k ≤ 5)
  colon : ∀ s t, t.head? ≠ some ':' → (S.pred 279 s (':' :: t) t).1 = false

/-! ### Inversion -/

section
variable {G : Nat → Exp} {a b e : Exp} {st : Text} {s s' : σ} {id i : Nat}

theorem ok_seq (h : Eval G S (.seq a b) st s t (.ok s' u)) : ∃ s1 v, Eval G S a st s t (.ok s1 v) ∧ Eval G S b st s1 v (.ok s' u) := by
  rcases eval_seq.mp h with ⟨_, _, e⟩ | ⟨s1, v, h1, h2⟩
  · cases e
  · exact ⟨s1, v, h1, h2⟩

theorem ok_alt (h : Eval G S (.alt a b) st s t (.ok s' u)) : (∃ s1, Eval G S a st s t (.ok s1 u)) ∨ ∃ s1 s2, Eval G S b st s1 t (.ok s2 u) := by
  rcases eval_alt.mp h with ⟨s1, _, h2⟩ | ⟨s1, v, h1, e⟩
  · exact .inr ⟨_, _, h2⟩
  · cases e; exact .inl ⟨_, h1⟩

theorem ok_act (h : Eval G S (.act id e) st s t (.ok s' u)) : ∃ s1, Eval G S e st s t (.ok s1 u) := by
  rcases eval_act.mp h with ⟨_, _, e⟩ | ⟨s1, v, h1, e⟩
  · cases e
  · cases e; exact ⟨s1, h1⟩

theorem ok_scope (h : Eval G S (.scope e) st s t (.ok s' u)) : Eval G S e t s t (.ok s' u) := by
  rcases eval_scope.mp h with ⟨_, _, e⟩ | ⟨s1, v, h1, e⟩
  · cases e
  · cases e; exact h1

theorem ok_pred (h : Eval G S (.pred id) st s t (.ok s' u)) : (S.pred id s st t).1 = true ∧ u = t := by
  have := eval_pred.mp h
  rcases hp : S.pred id s st t with ⟨b, s1⟩
  rw [hp] at this
  cases b <;> cases this
  exact ⟨rfl, rfl⟩

theorem ok_yields {o : Option Text} (h : Eval G S e st s t (.ok s' u)) (hy : Yields G S e t o) : o = some u := (hy _ _ _ h).symm

end

theorem ok_char {d : Char} (hd : d ≠ '\uFFFD') {st : Text} {s s' : σ} (h : Eval grammar S (.lit [d]) st s t (.ok s' u)) : t = d :: u := by
  have := eval_lit.mp h
  cases hm : matchLit [d] t with
  | none => rw [hm] at this; cases this
  | some w =>
    rw [hm] at this
    cases this
    exact matchLit_prefix [d] t _ (by simpa using hd.symm) hm

theorem ok_plus {k : Cls} {st : Text} {s s' : σ} (h : Eval grammar S (.plus (.cls k)) st s t (.ok s' u)) :
    ∃ c x, t = (c :: x) ++ u ∧ (∀ d ∈ c :: x, k.has S.letter S.number d = true) ∧ u = t.dropWhile (k.has S.letter S.number) := by
  cases t with
  | nil => cases ok_yields h (never_plus yields_cls_nil)
  | cons c t =>
    cases hc : k.has S.letter S.number c with
    | false => cases ok_yields h (C58.never_plus_class hc)
    | true =>
      have := Option.some.inj (ok_yields h (C58.yields_plus_class hc))
      refine ⟨c, t.takeWhile (k.has S.letter S.number), ?_, ?_, this.symm⟩
      · rw [← this, List.dropWhile_cons_of_pos hc, List.cons_append, List.takeWhile_append_dropWhile]
      · intro d hd
        rcases List.mem_cons.mp hd with rfl | hd
        · exact hc
        · exact C59.mem_takeWhile hd

theorem ok_cls {k : Cls} {st : Text} {s s' : σ} (h : Eval grammar S (.cls k) st s t (.ok s' u)) : ∃ c, t = c :: u ∧ k.has S.letter S.number c = true := by
  cases t with
  | nil => cases ok_yields h yields_cls_nil
  | cons c t =>
    cases hc : k.has S.letter S.number c with
    | false => cases ok_yields h (yields_cls_no hc)
    | true => cases ok_yields h (yields_cls hc); exact ⟨c, rfl, hc⟩

theorem ok_spaces {st : Text} {s s' : σ} (h : Eval grammar S (.rule R.Spaces) st s t (.ok s' u)) : ∃ b y, t = b :: y ∧ isBlank b = true ∧ u = y.dropWhile isBlank := by
  obtain ⟨s1, h⟩ := ok_act (eval_rule.mp h)
  obtain ⟨c, x, e, hb, hu⟩ := ok_plus h
  have hc : isBlank c = true := by rw [← has_blank (S := S)]; exact hb c List.mem_cons_self
  refine ⟨c, x ++ u, e, hc, ?_⟩
  have : (Cls.mk false ['\t', ' '] [] false false).has S.letter S.number = isBlank := by funext d; exact has_blank d
  rw [this, e, List.cons_append, List.dropWhile_cons_of_pos hc] at hu
  exact hu

/-! ### What an item begins with -/

/-- An item at the beginning of the text (after spaces): a mark, spaces, and `u`. -/
def ItemAt (t u : Text) : Prop := ∃ (m : Mark) (b : Char) (y : Text), m.Ok ∧ isBlank b = true ∧ t.dropWhile isBlank = m.text ++ b :: y ∧ u = y.dropWhile isBlank

theorem itemAt_looks (h : ItemAt t u) : Looks (t.dropWhile isBlank) := by
  obtain ⟨m, b, y, hm, hb, e, _⟩ := h
  exact ⟨m, hm, b, hb, y, by rw [e]; simp⟩

theorem drop_marks {d : Char} (t : Text) : ∃ k, t = List.replicate k d ++ t.dropWhile (· == d) ∧ (t.dropWhile (· == d)).head? ≠ some d := by
  induction t with
  | nil => exact ⟨0, rfl, fun h => nomatch h⟩
  | cons c t ih =>
    by_cases hc : c = d
    · subst hc
      obtain ⟨k, h1, h2⟩ := ih
      rw [List.dropWhile_cons_of_pos (by simp)]
      exact ⟨k + 1, by rw [List.replicate_succ, List.cons_append, ← h1], h2⟩
    · rw [List.dropWhile_cons_of_neg (by simpa using hc)]
      exact ⟨0, rfl, fun h => hc (Option.some.inj h)⟩

theorem yields_plus_lit {d : Char} (hd : d ≠ '\uFFFD') {t : Text} : Yields grammar S (.plus (.lit [d])) (d :: t) (some (t.dropWhile (· == d))) :=
  yields_plus_step (yields_lit.to (o' := some t) (by simp [matchLit])) (C49.yields_star_lit hd t)

theorem ok_marks {d : Char} (hd : d ≠ '\uFFFD') {st : Text} {s s' : σ} (h : Eval grammar S (.plus (.lit [d])) st s t (.ok s' u)) :
    ∃ k, t = List.replicate (k + 1) d ++ u ∧ u.head? ≠ some d := by
  rcases eval_plus.mp h with ⟨_, _, e⟩ | ⟨s1, v, h1, _⟩
  · cases e
  · have := ok_char hd h1
    subst this
    have := Option.some.inj (ok_yields h (yields_plus_lit hd))
    obtain ⟨k, h1, h2⟩ := drop_marks (d := d) v
    rw [this] at h1 h2
    exact ⟨k, by rw [List.replicate_succ, List.cons_append, ← h1], h2⟩

theorem ok_class {k : Cls} {d : Char} (hd : d ≠ '\uFFFD') {st : Text} {s s' : σ} (h : Eval grammar S (.scope (.seq (.plus (.cls k)) (.lit [d]))) st s t (.ok s' u)) :
    ∃ ds, ds ≠ [] ∧ (∀ c ∈ ds, k.has S.letter S.number c = true) ∧ t = ds ++ d :: u := by
  obtain ⟨s1, v, h1, h2⟩ := ok_seq (ok_scope h)
  obtain ⟨c, x, e, hb, _⟩ := ok_plus h1
  have := ok_char hd h2
  exact ⟨c :: x, by simp, hb, by rw [e, this]⟩

theorem ok_letter {k : Cls} {d : Char} (hd : d ≠ '\uFFFD') {st : Text} {s s' : σ} (h : Eval grammar S (.scope (.seq (.cls k) (.lit [d]))) st s t (.ok s' u)) :
    ∃ c, k.has S.letter S.number c = true ∧ t = c :: d :: u := by
  obtain ⟨s1, v, h1, h2⟩ := ok_seq (ok_scope h)
  obtain ⟨c, e, hb⟩ := ok_cls h1
  have := ok_char hd h2
  exact ⟨c, hb, by rw [e, this]⟩

theorem has_range (a b c : Char) : (Cls.mk false [] [(a, b)] false false).has S.letter S.number c = (decide (a ≤ c) && decide (c ≤ b)) := by
  simp [Cls.has]

theorem has_chars (l : List Char) (c : Char) : (Cls.mk false l [] false false).has S.letter S.number c = l.contains c := by
  simp [Cls.has]

/-- The marks of ordered lists. -/
def marks : Exp := .alt (.act 261 (.scope (.seq (.act 259 (.plus (.lit
    ['.']))) (.pred 260)))) (.alt (.act 262 (.scope (.seq (.plus (.cls ⟨false, [], [('0', '9')], false, false⟩))
    (.lit ['.'])))) (.alt (.act 263 (.scope (.seq (.cls ⟨false, [], [('a', 'z')], false, false⟩) (.lit ['.']))))
    (.alt (.act 264 (.scope (.seq (.cls ⟨false, [], [('A', 'Z')], false, false⟩) (.lit ['.'])))) (.alt (.act
    265 (.scope (.seq (.plus (.cls ⟨false, ['i', 'v', 'x', 'd', 'l', 'c', 'm'], [], false, false⟩)) (.lit
    [')'])))) (.act 266 (.scope (.seq (.plus (.cls ⟨false, ['I', 'V', 'X', 'D', 'L', 'C', 'M'], [], false,
    false⟩)) (.lit [')']))))))))

theorem ordered_rule : grammar R.OrderedListElementPrefix = .act 267 (.scope (.seq (.star (.rule R.Space)) (.seq marks (.rule R.Spaces)))) := rfl

theorem unordered_rule : grammar R.UnorderedListElementPrefix = .act 271 (.scope (.seq (.star (.rule R.Space)) (.seq (.act 269 (.alt (.lit ['-']) (.plus (.lit ['*']))))
    (.seq (.pred 270) (.rule R.Spaces))))) := rfl

theorem ok_ordered_marks (hC : ListCode S) {st : Text} {s s' : σ} (h : Eval grammar S marks st s t (.ok s' u)) : ∃ m : Mark, m.Ok ∧ t = m.text ++ u := by
  rcases ok_alt h with ⟨_, h⟩ | ⟨_, _, h⟩
  · obtain ⟨_, h⟩ := ok_act h
    obtain ⟨_, v, h1, h2⟩ := ok_seq (ok_scope h)
    obtain ⟨_, h1⟩ := ok_act h1
    obtain ⟨k, e, hn⟩ := ok_marks (by decide) h1
    obtain ⟨hp, e2⟩ := ok_pred h2
    rw [e, hC.dots _ _ _ hn] at hp
    exact ⟨.dots (k + 1), ⟨by omega, of_decide_eq_true hp⟩, by rw [e, e2]; rfl⟩
  rcases ok_alt h with ⟨_, h⟩ | ⟨_, _, h⟩
  · obtain ⟨_, h⟩ := ok_act h
    obtain ⟨ds, hne, hd, e⟩ := ok_class (by decide) h
    refine ⟨.number ds, ⟨hne, fun c hc => ?_⟩, by rw [e]; simp [Mark.text]⟩
    have := hd c hc
    rw [has_range] at this
    simpa using this
  rcases ok_alt h with ⟨_, h⟩ | ⟨_, _, h⟩
  · obtain ⟨_, h⟩ := ok_act h
    obtain ⟨c, hc, e⟩ := ok_letter (by decide) h
    rw [has_range] at hc
    exact ⟨.letter c, by simpa [Mark.Ok] using hc, e⟩
  rcases ok_alt h with ⟨_, h⟩ | ⟨_, _, h⟩
  · obtain ⟨_, h⟩ := ok_act h
    obtain ⟨c, hc, e⟩ := ok_letter (by decide) h
    rw [has_range] at hc
    exact ⟨.capital c, by simpa [Mark.Ok] using hc, e⟩
  rcases ok_alt h with ⟨_, h⟩ | ⟨_, _, h⟩
  · obtain ⟨_, h⟩ := ok_act h
    obtain ⟨ds, hne, hd, e⟩ := ok_class (by decide) h
    refine ⟨.roman ds, ⟨hne, fun c hc => ?_⟩, by rw [e]; simp [Mark.text]⟩
    have := hd c hc
    rw [has_chars] at this
    exact List.contains_iff_mem.mp this
  · obtain ⟨_, h⟩ := ok_act h
    obtain ⟨ds, hne, hd, e⟩ := ok_class (by decide) h
    refine ⟨.capRoman ds, ⟨hne, fun c hc => ?_⟩, by rw [e]; simp [Mark.text]⟩
    have := hd c hc
    rw [has_chars] at this
    exact List.contains_iff_mem.mp this

theorem ok_ordered (hC : ListCode S) {st : Text} {s s' : σ} (h : Eval grammar S (.rule R.OrderedListElementPrefix) st s t (.ok s' u)) : ItemAt t u := by
  have h := eval_rule.mp h
  rw [ordered_rule] at h
  obtain ⟨_, h⟩ := ok_act h
  obtain ⟨_, v, h1, h2⟩ := ok_seq (ok_scope h)
  have := Option.some.inj (ok_yields h1 yields_spaces)
  subst this
  obtain ⟨_, w, h3, h4⟩ := ok_seq h2
  obtain ⟨m, hm, e⟩ := ok_ordered_marks hC h3
  obtain ⟨b, y, e2, hb, hu⟩ := ok_spaces h4
  exact ⟨m, b, y, hm, hb, by rw [e, e2], hu⟩

theorem ok_unordered (hC : ListCode S) {st : Text} {s s' : σ} (h : Eval grammar S (.rule R.UnorderedListElementPrefix) st s t (.ok s' u)) : ItemAt t u := by
  have h := eval_rule.mp h
  rw [unordered_rule] at h
  obtain ⟨_, h⟩ := ok_act h
  obtain ⟨_, v, h1, h2⟩ := ok_seq (ok_scope h)
  have := Option.some.inj (ok_yields h1 yields_spaces)
  subst this
  obtain ⟨_, w, h3, h4⟩ := ok_seq h2
  obtain ⟨_, x, h5, h6⟩ := ok_seq h4
  obtain ⟨hp, rfl⟩ := ok_pred h5
  obtain ⟨b, y, e2, hb, hu⟩ := ok_spaces h6
  obtain ⟨_, h3⟩ := ok_act h3
  rcases ok_alt h3 with ⟨_, h3⟩ | ⟨_, _, h3⟩
  · have e := ok_char (by decide) h3
    exact ⟨.dash, b, y, trivial, hb, by rw [e, e2]; rfl, hu⟩
  · obtain ⟨k, e, hn⟩ := ok_marks (by decide) h3
    have et : t = t.takeWhile isBlank ++ (List.replicate (k + 1) '*' ++ x) := by rw [← e, List.takeWhile_append_dropWhile]
    rw [et] at hp
    have hw : ∀ c ∈ t.takeWhile isBlank, isBlank c = true := fun c hc => C59.mem_takeWhile hc
    generalize t.takeWhile isBlank = w at et hp hw
    rw [hC.stars _ w _ _ hw hn] at hp
    exact ⟨.stars (k + 1), b, y, ⟨by omega, of_decide_eq_true hp⟩, hb, by rw [e, e2]; rfl, hu⟩

/-- Nothing to see. -/
def Bare (u : Text) : Prop := ∀ c, u.head? = some c → isEol c = true

theorem never_content (h : Bare u) : Never grammar S (.rule R.ListElementContent) u := by
  refine yields_rule (yields_act (yields_scope (never_seq (never_plus (yields_act (never_plus ?_))))))
  cases u with
  | nil => exact yields_cls_nil
  | cons c u => exact yields_cls_no (by rw [has_line, h c rfl]; rfl)

theorem never_ordered (hC : ListCode S) (h : ∀ u, ItemAt t u → Bare u) : Never grammar S (.rule R.OrderedListElement) t := by
  refine yields_rule (yields_act (yields_scope ?_))
  intro st s x hx
  rcases eval_seq.mp hx with ⟨_, _, rfl⟩ | ⟨s1, v, h1, h2⟩
  · rfl
  · exact never_content (h v (ok_ordered hC h1)) _ _ _ h2

theorem never_box (h : u.head? ≠ some '[') : Never grammar S (.rule R.UnorderedListElementCheckStyle) u := by
  refine yields_rule (yields_act (yields_scope (never_seq (never_andP ?_))))
  refine yields_lit.to ?_
  cases u with
  | nil => decide
  | cons c u =>
    unfold matchLit
    rw [if_neg (fun e => h (by rw [e]; rfl))]

theorem never_unordered (hC : ListCode S) (h : ∀ u, ItemAt t u → Bare u) : Never grammar S (.rule R.UnorderedListElement) t := by
  refine yields_rule (yields_act (yields_scope ?_))
  intro st s x hx
  rcases eval_seq.mp hx with ⟨_, _, rfl⟩ | ⟨s1, v, h1, h2⟩
  · rfl
  · have hv := h v (ok_unordered hC h1)
    refine yields_seq (yields_opt_none (never_box ?_)) (never_content hv) _ _ _ h2
    intro e
    exact absurd (hv '[' e) (by decide)

/-! ### Labeled items and callouts -/

theorem never_of_ok {e : Exp} (h : ∀ st s s' u, ¬ Eval grammar S e st s t (.ok s' u)) : Never grammar S e t := by
  intro st s r hr
  cases r with
  | fail _ => rfl
  | ok s' u => exact absurd hr (h st s s' u)

theorem never_separator (hC : ListCode S) (h : ¬ [':', ':'] <+: t) : Never grammar S (.rule R.LabeledListElementSeparator) t := by
  refine never_of_ok (fun st s s' u he => ?_)
  obtain ⟨_, he⟩ := ok_act (eval_rule.mp he)
  obtain ⟨_, v, h1, h2⟩ := ok_seq (ok_scope he)
  obtain ⟨_, h1⟩ := ok_act h1
  obtain ⟨k, e, hn⟩ := ok_marks (by decide) h1
  obtain ⟨hp, _⟩ := ok_pred h2
  cases k with
  | zero =>
    rw [e, show List.replicate (0 + 1) ':' ++ v = ':' :: v from rfl, hC.colon _ _ hn] at hp
    cases hp
  | succ k => exact h ⟨List.replicate k ':' ++ v, by rw [e]; rfl⟩

/-- A character of a term. -/
def termChar : Exp := .scope (.seq (.notP (.rule R.LabeledListElementSeparator)) (.seq (.notP (.rule R.EOL)) .any))

theorem never_termChar (hz : Cut z r) : Never grammar S termChar z := by
  refine yields_scope (C49.never_after (fun _ _ _ _ h => C49.notP_stays h) (never_seq (never_notP ?_)))
  cases hz with
  | line => exact (yields_EOL.to (o' := some r) rfl).sure
  | eof => exact (yields_EOL.to (o' := some []) rfl).sure

theorem yields_termChar (hC : ListCode S) {c : Char} (hc : isEol c = false) (h : ¬ [':', ':'] <+: c :: t) : Yields grammar S termChar (c :: t) (some t) :=
  yields_scope (yields_seq (yields_notP (never_separator hC h)) (yields_seq (yields_notP (C63.never_EOL hc)) yields_any_cons))

theorem term_star (hC : ListCode S) (hz : Cut z r) : ∀ {l : Text}, (∀ c ∈ l, isEol c = false) → ¬ [':', ':'] <:+: l → Yields grammar S (.star termChar) (l ++ z) (some z)
  | [], _, _ => yields_star_stop (never_termChar hz)
  | c :: l, h1, h2 => by
    have := term_star hC hz (fun d hd => h1 d (List.mem_cons_of_mem _ hd)) (fun h => h2 (h.trans (List.suffix_cons c l).isInfix))
    exact yields_star_step (yields_termChar hC (h1 c List.mem_cons_self) (fun h => h2 (C59.prefix_line hz (by decide) (l := c :: l) h).isInfix)) this

theorem never_colon (hz : Cut z r) (hC : ListCode S) : Never grammar S (.rule R.LabeledListElementSeparator) z :=
  never_separator hC (by
    cases hz with
    | line => rintro ⟨x, h⟩; cases h
    | eof => decide)

theorem never_term (hC : ListCode S) (hz : Cut z r) {l : Text} (h1 : ∀ c ∈ l, isEol c = false) (h2 : ¬ [':', ':'] <:+: l) {e : Exp}
    (he : Never grammar S e z) : Never grammar S (.seq (.rule R.LabeledListElementTerm) e) (l ++ z) := by
  cases l with
  | nil => exact never_seq (yields_rule (yields_act (never_plus (never_termChar hz))))
  | cons c l =>
    refine yields_seq (u := z) (yields_rule (yields_act (yields_plus_step (u := l ++ z) ?_ ?_))) he
    · exact yields_termChar hC (h1 c List.mem_cons_self) (fun h => h2 (C59.prefix_line hz (by decide) (l := c :: l) h).isInfix)
    · exact term_star hC hz (fun d hd => h1 d (List.mem_cons_of_mem _ hd)) (fun h => h2 (h.trans (List.suffix_cons c l).isInfix))

theorem never_labeled (hC : ListCode S) (hz : Cut z r) {l : Text} (h1 : ∀ c ∈ l, isEol c = false) (h2 : ¬ [':', ':'] <:+: l) :
    Never grammar S (.rule R.LabeledListElement) (l ++ z) :=
  yields_rule (yields_act (yields_scope (never_term hC hz h1 h2 (never_seq (never_colon hz hC)))))

theorem never_calloutPrefix (h : t.head? ≠ some '<') : Never grammar S (.rule R.CalloutListElementPrefix) t := by
  refine yields_rule (yields_act (yields_scope (never_seq (yields_lit.to ?_))))
  cases t with
  | nil => decide
  | cons c t =>
    unfold matchLit
    rw [if_neg (fun e => h (by rw [e]; rfl))]

theorem never_callout (h : t.head? ≠ some '<') : Never grammar S (.rule R.CalloutListElement) t :=
  yields_rule (yields_act (yields_scope (never_seq (never_calloutPrefix h))))

/-- No item of a list begins with the text. -/
structure NoItem (t : Text) : Prop where
  mark : ∀ u, ItemAt t u → Bare u
  callout : t.head? ≠ some '<'
  label : ∃ l z r, t = l ++ z ∧ Cut z r ∧ (∀ c ∈ l, isEol c = false) ∧ ¬ [':', ':'] <:+: l

/-- The items of lists. -/
def items : Exp := .alt (.rule R.OrderedListElement) (.alt (.rule R.UnorderedListElement) (.alt (.rule R.CalloutListElement) (.rule R.LabeledListElement)))

theorem never_items (hC : ListCode S) (h : NoItem t) : Never grammar S items t := by
  refine yields_alt_right (never_ordered hC h.mark) (yields_alt_right (never_unordered hC h.mark) (yields_alt_right (never_callout h.callout) ?_))
  obtain ⟨l, z, r, rfl, hz, h1, h2⟩ := h.label
  exact never_labeled hC hz h1 h2

/-! ### Items -/

/-- The value of a numbering. -/
def numbering : Style → Nat
  | .bullet _ => 0
  | .arabic => 0
  | .lowerAlpha => 1
  | .lowerRoman => 2
  | .upperAlpha => 3
  | .upperRoman => 4

/-- The label of the items of a list of some style. -/
def label : Style → Nat
  | .bullet k => unorderedLabel k
  | s => orderedLabel (numbering s)

/-- The mark of an ordered list. -/
def Ordered : Mark → Prop
  | .dash => False
  | .stars _ => False
  | _ => True

theorem never_class {k : Cls} {e : Exp} {c : Char} {i : Nat} (h : k.has S.letter S.number c = false) : Never grammar S (.act i (.scope (.seq (.plus (.cls k)) e))) (c :: t) :=
  yields_act (yields_scope (never_seq (C58.never_plus_class h)))

theorem never_letter {k : Cls} {e : Exp} {c : Char} {i : Nat} (h : k.has S.letter S.number c = false) : Never grammar S (.act i (.scope (.seq (.cls k) e))) (c :: t) :=
  yields_act (yields_scope (never_seq (yields_cls_no h)))

theorem never_letter_dot {k : Cls} {c d : Char} {i : Nat} (hc : k.has S.letter S.number c = true) (hd : d ≠ '.') :
    Never grammar S (.act i (.scope (.seq (.cls k) (.lit ['.'])))) (c :: d :: t) := by
  refine yields_act (yields_scope (yields_seq (yields_cls hc) (yields_lit.to ?_)))
  unfold matchLit
  rw [if_neg hd.symm]

theorem never_dots {c : Char} (h : c ≠ '.') : Never grammar S (.act 261 (.scope (.seq (.act 259 (.plus (.lit ['.']))) (.pred 260)))) (c :: t) := by
  refine yields_act (yields_scope (never_seq (yields_act (never_plus (yields_lit.to ?_)))))
  unfold matchLit
  rw [if_neg h.symm]

theorem yields_class {k : Cls} {d : Char} {ds : Text} (hne : ds ≠ []) (h : ∀ c ∈ ds, k.has S.letter S.number c = true) (hd : k.has S.letter S.number d = false) :
    Yields grammar S (.scope (.seq (.plus (.cls k)) (.lit [d]))) (ds ++ d :: t) (some t) := by
  cases ds with
  | nil => exact absurd rfl hne
  | cons c ds =>
    refine yields_scope (yields_seq (u := d :: t) ((C58.yields_plus_class (h c List.mem_cons_self)).to ?_) (yields_lit.to (by simp [matchLit])))
    show some (((c :: ds) ++ d :: t).dropWhile _) = _
    rw [List.dropWhile_append_of_pos h, List.dropWhile_cons_of_neg (by rw [hd]; decide)]

theorem yields_letter {k : Cls} {c d : Char} (h : k.has S.letter S.number c = true) : Yields grammar S (.scope (.seq (.cls k) (.lit [d]))) (c :: d :: t) (some t) :=
  yields_scope (yields_seq (yields_cls h) (yields_lit.to (by simp [matchLit])))

theorem no_digit {c : Char} (h : ¬ ('0' ≤ c ∧ c ≤ '9')) : (Cls.mk false [] [('0', '9')] false false).has S.letter S.number c = false := by
  rw [has_range]
  simp only [Bool.and_eq_false_iff, decide_eq_false_iff_not]
  by_cases h1 : '0' ≤ c
  · exact .inr (fun h2 => h ⟨h1, h2⟩)
  · exact .inl h1

theorem no_small {c : Char} (h : ¬ ('a' ≤ c ∧ c ≤ 'z')) : (Cls.mk false [] [('a', 'z')] false false).has S.letter S.number c = false := by
  rw [has_range]
  simp only [Bool.and_eq_false_iff, decide_eq_false_iff_not]
  by_cases h1 : 'a' ≤ c
  · exact .inr (fun h2 => h ⟨h1, h2⟩)
  · exact .inl h1

theorem no_big {c : Char} (h : ¬ ('A' ≤ c ∧ c ≤ 'Z')) : (Cls.mk false [] [('A', 'Z')] false false).has S.letter S.number c = false := by
  rw [has_range]
  simp only [Bool.and_eq_false_iff, decide_eq_false_iff_not]
  by_cases h1 : 'A' ≤ c
  · exact .inr (fun h2 => h ⟨h1, h2⟩)
  · exact .inl h1

theorem marks_dots (hC : ListCode S) (hA : Obeys A) {n : Nat} (h1 : 1 ≤ n) (h2 : n ≤ 5) (hx : t.head? ≠ some '.') {st : Text} :
    Exactly grammar S A st marks (List.replicate n '.' ++ t) [.plain (numbering (Mark.dots n).style)] t := by
  obtain ⟨k, rfl⟩ : ∃ k, n = k + 1 := ⟨n - 1, by omega⟩
  have hy : Yields grammar S (.plus (.lit ['.'])) (List.replicate (k + 1) '.' ++ t) (some t) := by
    rw [List.replicate_succ]
    refine (yields_plus_lit (by decide)).to ?_
    show some ((List.replicate k '.' ++ t).dropWhile (fun x => x == '.')) = _
    rw [List.dropWhile_append_of_pos (fun c hc => by simpa using (List.mem_replicate.mp hc).2)]
    cases t with
    | nil => rfl
    | cons c x => rw [List.dropWhile_cons_of_neg (fun h => hx (by simpa using h))]
  refine exactly_alt_left (exactly_act (exactly_scope (exactly_seq (exactly_of_yields hy (y := .plain (k + 1)) (fun s v => ?_)) (exactly_pred (fun s => ?_)))) (fun s => ?_))
  · rw [C58.span_append, hA 259 s v _ _ rfl, List.length_replicate]
  · rw [hC.dots _ _ _ hx]
    exact decide_eq_true h2
  · refine hA 261 s _ _ _ ?_
    have : k = 0 ∨ k = 1 ∨ k = 2 ∨ k = 3 ∨ k = 4 := by omega
    rcases this with rfl | rfl | rfl | rfl | rfl <;> rfl

theorem marks_exactly (hC : ListCode S) (hA : Obeys A) {m : Mark} (hm : m.Ok) (ho : Ordered m) {b : Char} (hb : isBlank b = true) {st : Text} :
    Exactly grammar S A st marks (m.text ++ b :: t) [.plain (numbering m.style)] (b :: t) := by
  have hdot : ∀ (s : σ) v, A 262 s v (span (m.text ++ b :: t) (b :: t)) = .plain 0 := fun s v => hA 262 s v _ _ rfl
  cases m with
  | dash => exact ho.elim
  | stars _ => exact ho.elim
  | dots n =>
    refine marks_dots hC hA hm.1 hm.2 ?_
    intro e
    rw [Option.some.inj e] at hb
    cases hb
  | number ds =>
    obtain ⟨hne, hd⟩ := hm
    have hy := yields_class (S := S) (t := b :: t) (k := ⟨false, [], [('0', '9')], false, false⟩) (d := '.') hne (fun c hc => by rw [has_range]; simp [hd c hc]) (by rw [has_range]; decide)
    have e : (Mark.number ds).text ++ b :: t = ds ++ '.' :: b :: t := by simp [Mark.text]
    rw [e]
    have hfirst : Never grammar S (.act 261 (.scope (.seq (.act 259 (.plus (.lit ['.']))) (.pred 260)))) (ds ++ '.' :: b :: t) := by
      cases ds with
      | nil => exact absurd rfl hne
      | cons c ds => exact never_dots (by rintro rfl; exact absurd (hd '.' List.mem_cons_self) (by decide))
    exact exactly_alt_right hfirst (exactly_alt_left (exactly_of_yields hy (fun s v => hA 262 s v _ _ rfl)))
  | letter c =>
    have hc : 'a' ≤ c ∧ c ≤ 'z' := hm
    refine exactly_alt_right (never_dots ?_) (exactly_alt_right (never_class (no_digit ?_)) (exactly_alt_left (exactly_of_yields (yields_letter ?_) (fun s v => hA 263 s v _ _ rfl))))
    · rintro rfl; exact absurd hc (by decide)
    · rintro ⟨_, h⟩
      exact absurd (Char.le_trans hc.1 h) (by decide)
    · rw [has_range]; simp [hc]
  | capital c =>
    have hc : 'A' ≤ c ∧ c ≤ 'Z' := hm
    refine exactly_alt_right (never_dots ?_) (exactly_alt_right (never_class (no_digit ?_)) (exactly_alt_right (never_letter (no_small ?_)) (exactly_alt_left
      (exactly_of_yields (yields_letter ?_) (fun s v => hA 264 s v _ _ rfl)))))
    · rintro rfl; exact absurd hc (by decide)
    · rintro ⟨_, h⟩
      exact absurd (Char.le_trans hc.1 h) (by decide)
    · rintro ⟨h, _⟩
      exact absurd (Char.le_trans h hc.2) (by decide)
    · rw [has_range]; simp [hc]
  | roman cs =>
    obtain ⟨hne, hd⟩ := hm
    have hy := yields_class (S := S) (t := b :: t) (k := ⟨false, ['i', 'v', 'x', 'd', 'l', 'c', 'm'], [], false, false⟩) (d := ')') hne
      (fun c hc => by rw [has_chars]; exact List.contains_iff_mem.mpr (hd c hc)) (by rw [has_chars]; decide)
    have e : (Mark.roman cs).text ++ b :: t = cs ++ ')' :: b :: t := by simp [Mark.text]
    rw [e]
    obtain ⟨c, d, x, hx, hc, hdd⟩ : ∃ c d x, cs ++ ')' :: b :: t = c :: d :: x ∧ c ∈ ['i', 'v', 'x', 'd', 'l', 'c', 'm'] ∧ d ≠ '.' := by
      cases cs with
      | nil => exact absurd rfl hne
      | cons c cs =>
        cases cs with
        | nil => exact ⟨c, ')', _, rfl, hd c List.mem_cons_self, by decide⟩
        | cons d cs =>
          refine ⟨c, d, _, rfl, hd c List.mem_cons_self, ?_⟩
          rintro rfl
          exact absurd (hd '.' (by simp)) (by decide)
    rw [hx] at hy ⊢
    have hr : ('a' ≤ c ∧ c ≤ 'z') ∧ c ≠ '.' ∧ ¬ ('0' ≤ c ∧ c ≤ '9') ∧ ¬ ('A' ≤ c ∧ c ≤ 'Z') := by
      simp only [List.mem_cons, List.not_mem_nil, or_false] at hc
      rcases hc with rfl | rfl | rfl | rfl | rfl | rfl | rfl <;> decide
    exact exactly_alt_right (never_dots hr.2.1) (exactly_alt_right (never_class (no_digit hr.2.2.1)) (exactly_alt_right (never_letter_dot (by rw [has_range]; simp [hr.1]) hdd)
      (exactly_alt_right (never_letter (no_big hr.2.2.2)) (exactly_alt_left (exactly_of_yields hy (fun s v => hA 265 s v _ _ rfl))))))
  | capRoman cs =>
    obtain ⟨hne, hd⟩ := hm
    have hy := yields_class (S := S) (t := b :: t) (k := ⟨false, ['I', 'V', 'X', 'D', 'L', 'C', 'M'], [], false, false⟩) (d := ')') hne
      (fun c hc => by rw [has_chars]; exact List.contains_iff_mem.mpr (hd c hc)) (by rw [has_chars]; decide)
    have e : (Mark.capRoman cs).text ++ b :: t = cs ++ ')' :: b :: t := by simp [Mark.text]
    rw [e]
    obtain ⟨c, d, x, hx, hc, hdd⟩ : ∃ c d x, cs ++ ')' :: b :: t = c :: d :: x ∧ c ∈ ['I', 'V', 'X', 'D', 'L', 'C', 'M'] ∧ d ≠ '.' := by
      cases cs with
      | nil => exact absurd rfl hne
      | cons c cs =>
        cases cs with
        | nil => exact ⟨c, ')', _, rfl, hd c List.mem_cons_self, by decide⟩
        | cons d cs =>
          refine ⟨c, d, _, rfl, hd c List.mem_cons_self, ?_⟩
          rintro rfl
          exact absurd (hd '.' (by simp)) (by decide)
    rw [hx] at hy ⊢
    have hr : ('A' ≤ c ∧ c ≤ 'Z') ∧ c ≠ '.' ∧ ¬ ('0' ≤ c ∧ c ≤ '9') ∧ ¬ ('a' ≤ c ∧ c ≤ 'z') ∧ c ∉ ['i', 'v', 'x', 'd', 'l', 'c', 'm'] := by
      simp only [List.mem_cons, List.not_mem_nil, or_false] at hc
      rcases hc with rfl | rfl | rfl | rfl | rfl | rfl | rfl <;> decide
    exact exactly_alt_right (never_dots hr.2.1) (exactly_alt_right (never_class (no_digit hr.2.2.1)) (exactly_alt_right (never_letter (no_small hr.2.2.2.1))
      (exactly_alt_right (never_letter_dot (by rw [has_range]; simp [hr.1]) hdd) (exactly_alt_right (never_class (by
        rw [has_chars]; simpa using hr.2.2.2.2)) (exactly_of_yields hy (fun s v => hA 266 s v _ _ rfl))))))

end C64
end Verif
