import Verif.Spec.Headed
import Verif.Props.SectionParse

/-!
# C66 — The header of a document, in the grammar
-/
namespace Verif
namespace Peg
open Walk (Any)
variable {σ : Type} {G : Nat → Exp} {S : Sem σ} {A : Peg.Code σ} {st t u : Text}

theorem exactly_lit {l : List Char} (h : matchLit l t = some u) : Exactly G S A st (.lit l) t [.text (span t u)] u := by
  rintro s r ⟨n, hr⟩
  cases n with
  | zero => cases hr
  | succ n =>
    unfold runV at hr
    rw [h] at hr
    cases hr
    rfl

/-- At the end of the text there is no literal. -/
theorem starts_never_nil {F : List Char} : ∀ (n : Nat) (e : Exp), starts G F n e = true → Never G S e []
  | 0, _, h => nomatch h
  | n + 1, .lit (a :: l), h => by
    have h : (a != '\uFFFD' && F.contains a) = true := h
    rw [Bool.and_eq_true] at h
    refine yields_lit.to ?_
    unfold matchLit
    rw [if_neg (by simpa using h.1)]
  | n + 1, .seq a b, h => by
    have h : (starts G F n a || (a.still && starts G F n b)) = true := h
    rcases Bool.or_eq_true_iff.1 h with h | h
    · exact never_seq (starts_never_nil n a h)
    · rw [Bool.and_eq_true] at h
      intro st s r hr
      rcases eval_seq.mp hr with ⟨_, _, rfl⟩ | ⟨s1, u, h1, h2⟩
      · rfl
      · rw [still_rest h.1 h1] at h2
        exact starts_never_nil n b h.2 _ _ _ h2
  | n + 1, .alt a b, h => by
    have h : (starts G F n a && starts G F n b) = true := h
    rw [Bool.and_eq_true] at h
    exact yields_alt_right (starts_never_nil n a h.1) (starts_never_nil n b h.2)
  | n + 1, .rule i, h => yields_rule (starts_never_nil n (G i) h)
  | n + 1, .act _ e, h => yields_act (starts_never_nil n e h)
  | n + 1, .scope e, h => yields_scope (starts_never_nil n e h)
  | n + 1, .plus e, h => never_plus (starts_never_nil n e h)
  | n + 1, .lit [], h => nomatch h
  | n + 1, .eps, h => nomatch h
  | n + 1, .any, h => nomatch h
  | n + 1, .litI _, h => nomatch h
  | n + 1, .cls _, h => nomatch h
  | n + 1, .star _, h => nomatch h
  | n + 1, .opt _, h => nomatch h
  | n + 1, .andP _, h => nomatch h
  | n + 1, .notP _, h => nomatch h
  | n + 1, .pred _, h => nomatch h
  | n + 1, .state _, h => nomatch h

end Peg

namespace C66
open Peg Grammar Actions Headed
open C59 (Code Cut alnum)
open Sectioned (Heading Item)
open C64 (ok_seq ok_alt ok_act ok_scope ok_pred ok_yields ok_plus ok_cls no_lit spacesV never_of_ok)
open Walk (Any)

variable {σ : Type} {S : Sem σ} {A : Peg.Code σ} {z r x y : Text}

/-! ### Classes -/

theorem head_append {a b : Text} (h : a ≠ []) : (a ++ b).head? = a.head? := by
  cases a with
  | nil => exact absurd rfl h
  | cons c a => rfl

/-- The class of what is not in `l`. -/
abbrev but (l : List Char) : Cls := ⟨true, l, [], false, false⟩

theorem has_but (l : List Char) (c : Char) : (but l).has S.letter S.number c = !l.contains c := by
  simp [Cls.has]

/-- `x` does not go on with the class. -/
def Stops (l : List Char) (x : Text) : Prop := ∀ c ∈ x.head?, c ∈ l

theorem yields_run {l : List Char} {w : Text} (hne : w ≠ []) (hw : ∀ c ∈ w, c ∉ l) (hx : Stops l x) :
    Yields grammar S (.plus (.cls (but l))) (w ++ x) (some x) := by
  cases w with
  | nil => exact absurd rfl hne
  | cons c w =>
    have hp : ∀ d ∈ c :: w, (but l).has S.letter S.number d = true := fun d hd => by rw [has_but]; simpa using hw d hd
    refine (C58.yields_plus_class (S := S) (k := but l) (c := c) (t := w ++ x) (hp c List.mem_cons_self)).to ?_
    rw [show (c :: (w ++ x)) = (c :: w) ++ x from rfl, List.dropWhile_append_of_pos hp]
    cases x with
    | nil => rfl
    | cons d x =>
      rw [List.dropWhile_cons_of_neg]
      rw [has_but]
      have := hx d rfl
      simp [this]

/-- A text is read as it is. -/
theorem run_text {id : Nat} {l : List Char} {w : Text} (hA : Obeys A) (hid : ∀ v t, code id v t = some (.text t)) (hne : w ≠ []) (hw : ∀ c ∈ w, c ∉ l) (hx : Stops l x)
    {st : Text} : Exactly grammar S A st (.act id (.plus (.cls (but l)))) (w ++ x) [.text w] x := by
  refine exactly_of_yields (yields_run hne hw hx) (fun s v => ?_)
  rw [C58.span_append]
  exact hA id s v _ _ (hid v w)

theorem never_run {l : List Char} {x : Text} (hx : Stops l x) : Never grammar S (.plus (.cls (but l))) x := by
  cases x with
  | nil => exact never_plus yields_cls_nil
  | cons c x =>
    refine C58.never_plus_class ?_
    rw [has_but]
    have := hx c rfl
    simpa using this

theorem spaces0 (hA : Obeys A) {st : Text} (hx : ∀ c, x.head? = some c → isBlank c = false) : ∃ vs, Exactly grammar S A st (.star (.rule R.Space)) x [.slice vs] x :=
  spacesV hA hx (w := []) (fun _ h => nomatch h)

theorem spaces1 (hA : Obeys A) {st : Text} (hx : ∀ c, x.head? = some c → isBlank c = false) : ∃ vs, Exactly grammar S A st (.star (.rule R.Space)) (' ' :: x) [.slice vs] x :=
  spacesV hA hx (w := [' ']) (by decide)

/-! ### The code -/

/-- A name begins here. -/
def named (t : Text) : Bool := match t with
  | [] => false
  | c :: _ => !['<', ';', '\r', '\n', ' '].contains c

/-- An address is here: what follows `<` up to `>`. -/
def mailed (t : Text) : Bool := match t with
  | '<' :: t => (t.takeWhile (fun c => !['>', '\r', '\n'].contains c)) != [] && (t.dropWhile (fun c => !['>', '\r', '\n'].contains c)).head? == some '>'
  | _ => false

/-- What is assumed of the check in `DocumentAuthor` (parser.peg:1130-1134): there is a name or an address. `st` is where the author begins, and `t` what
remains after it; if nothing was read, neither was found. -/
def AuthorCode (S : Sem σ) : Prop := ∀ s st t, (S.pred 181 s st t).1 = ((named st || mailed st) && decide (t.length < st.length))

/-! ### Names -/

theorem word_but {t : Text} (h : Word t) : ∀ c ∈ t, c ∉ ['<', ';', '\r', '\n', ' '] := by
  intro c hc hm
  refine h c hc ?_
  simp only [List.mem_cons, List.not_mem_nil, or_false] at hm ⊢
  rcases hm with h | h | h | h | h <;> simp [h]

theorem word_head {t : Text} (h : Word t) : ∀ c, t.head? = some c → isBlank c = false := by
  intro c hc
  have := h c (List.mem_of_mem_head? hc)
  cases hb : isBlank c with
  | false => rfl
  | true =>
    simp only [isBlank, Bool.or_eq_true, beq_iff_eq] at hb
    rcases hb with rfl | rfl <;> exact absurd this (by decide)

/-- The end of a name: an address, the next author, or the end of the line. -/
def NameEnd (y : Text) : Prop := Stops ['<', ';', '\r', '\n'] y

theorem nameEnd_blank (h : NameEnd y) : ∀ c, y.head? = some c → isBlank c = false := by
  intro c hc
  have := h c hc
  simp only [List.mem_cons, List.not_mem_nil, or_false] at this
  rcases this with rfl | rfl | rfl | rfl <;> rfl

theorem nameEnd_word (h : NameEnd y) : Stops ['<', ';', '\r', '\n', ' '] y := by
  intro c hc
  have := h c hc
  simp only [List.mem_cons, List.not_mem_nil, or_false] at this ⊢
  rcases this with rfl | rfl | rfl | rfl <;> simp

theorem spaced_append (a b : Text) : spaced (a ++ b) = spaced a ++ spaced b := List.map_append

theorem trim_id {t : Text} (h : Trimmed t) : trimSpace t = t := by
  unfold trimSpace Rend.trim Rend.trimRight
  cases t with
  | nil => rfl
  | cons c t =>
    have hc : Rend.goSpace c = false := h.1 c rfl
    rw [List.dropWhile_cons_of_neg (by rw [hc]; decide)]
    cases hr : (c :: t).reverse with
    | nil => simp at hr
    | cons d u =>
      have hl : (c :: t).getLast? = some d := by
        rw [← List.reverse_reverse (c :: t), hr, List.getLast?_reverse]
        rfl
      have hd : Rend.goSpace d = false := h.2 d hl
      rw [List.dropWhile_cons_of_neg (by rw [hd]; decide), ← hr, List.reverse_reverse]

/-- … and one space around it. -/
theorem trim_spaces {t : Text} (h : Trimmed t) (hne : t ≠ []) {a b : Text} (ha : ∀ c ∈ a, c = ' ') (hb : ∀ c ∈ b, c = ' ') : trimSpace (a ++ (t ++ b)) = t := by
  have hs : ∀ c, c = ' ' → Rend.goSpace c = true := fun c h => by rw [h]; decide
  have hh : trimSpace (t ++ b) = t := by
    have := trim_id h
    unfold trimSpace Rend.trim Rend.trimRight at this ⊢
    have e : List.dropWhile Rend.goSpace (t ++ b) = t ++ b := by
      cases t with
      | nil => exact absurd rfl hne
      | cons c t =>
        have hc : Rend.goSpace c = false := h.1 c rfl
        rw [List.cons_append, List.dropWhile_cons_of_neg (by rw [hc]; decide)]
    have e' : List.dropWhile Rend.goSpace t = t := by
      cases t with
      | nil => rfl
      | cons c t =>
        have hc : Rend.goSpace c = false := h.1 c rfl
        rw [List.dropWhile_cons_of_neg (by rw [hc]; decide)]
    rw [e'] at this
    rw [e, List.reverse_append, List.dropWhile_append_of_pos (fun c hc => hs c (hb c (List.mem_reverse.mp hc)))]
    exact this
  rw [← hh]
  unfold trimSpace Rend.trim
  rw [List.dropWhile_append_of_pos (fun c hc => hs c (ha c hc)), show Rend.trimRight Rend.goSpace (List.dropWhile Rend.goSpace (t ++ b)) = t from hh,
    show Rend.trimRight Rend.goSpace (List.dropWhile Rend.goSpace (t ++ b)) = t from hh]

theorem trimmed_head {t : Text} (h : Trimmed (shown t)) : ∀ c, t.head? = some c → isBlank c = false := by
  intro c hc
  cases t with
  | nil => cases hc
  | cons d t =>
    cases hc
    have := h.1 (if c = '_' then ' ' else c) rfl
    cases hb : isBlank c with
    | false => rfl
    | true =>
      simp only [isBlank, Bool.or_eq_true, beq_iff_eq] at hb
      rcases hb with rfl | rfl <;> exact absurd this (by decide)

/-- The name of an author. -/
theorem name_rule (hA : Obeys A) {a : Author} (ha : a.Ok) {w : Text} (hw : w = [] ∨ w = [' ']) (hy : NameEnd y) {st : Text} :
    Exactly grammar S A st (.rule R.DocumentAuthorFullName) (a.first ++ (more a.middle ++ (more a.last ++ (w ++ y))))
      [.fullName (shown a.first) (shown a.middle) (shown a.last)] y := by
  have hyb := nameEnd_blank hy
  have hyw := nameEnd_word hy
  have hws : Stops ['<', ';', '\r', '\n', ' '] (w ++ y) := by
    rcases hw with rfl | rfl
    · exact hyw
    · intro c hc; cases hc; decide
  have hwb : ∀ c ∈ w, isBlank c = true := by rcases hw with rfl | rfl <;> decide
  by_cases hm : a.middle = []
  · by_cases hl : a.last = []
    · rw [hm, hl]
      obtain ⟨v1, h1⟩ := spacesV (S := S) hA (st := a.first ++ (w ++ y)) hyb hwb
      obtain ⟨v2, h2⟩ := spaces0 (S := S) hA (st := a.first ++ (w ++ y)) hyb
      refine exactly_rule (exactly_act (exactly_scope (exactly_seq (run_text hA (fun _ _ => rfl) ha.named (word_but ha.first) hws) (exactly_seq h1
        (exactly_seq (exactly_opt_never (yields_act (never_run hyw))) (exactly_seq h2 (exactly_seq (exactly_opt_never (yields_act (never_run hy))) h2)))))) (fun s => ?_))
      exact hA 186 s _ _ _ rfl
    · rw [hm]
      have hmore : more a.last = ' ' :: a.last := if_neg hl
      rw [hmore]
      show Exactly grammar S A st _ (a.first ++ (' ' :: (a.last ++ (w ++ y)))) _ _
      have hlw := ha.word hm
      have hlb : ∀ c, (a.last ++ (w ++ y)).head? = some c → isBlank c = false := by
        intro c hc
        rw [head_append hl] at hc
        exact word_head hlw c hc
      have hfs : Stops ['<', ';', '\r', '\n', ' '] (' ' :: (a.last ++ (w ++ y))) := by intro c hc; cases hc; decide
      obtain ⟨v1, h1⟩ := spaces1 (S := S) hA (st := a.first ++ (' ' :: (a.last ++ (w ++ y)))) hlb
      obtain ⟨v2, h2⟩ := spacesV (S := S) hA (st := a.first ++ (' ' :: (a.last ++ (w ++ y)))) hyb hwb
      obtain ⟨v3, h3⟩ := spaces0 (S := S) hA (st := a.first ++ (' ' :: (a.last ++ (w ++ y)))) hyb
      refine exactly_rule (exactly_act (exactly_scope (exactly_seq (run_text hA (fun _ _ => rfl) ha.named (word_but ha.first) hfs) (exactly_seq h1
        (exactly_seq (exactly_opt (run_text hA (fun _ _ => rfl) hl (word_but hlw) hws)) (exactly_seq h2 (exactly_seq (exactly_opt_never (yields_act (never_run hy))) h3)))))) (fun s => ?_))
      exact hA 186 s _ _ _ rfl
  · have hl := ha.order hm
    rw [show more a.last = ' ' :: a.last from if_neg hl, show more a.middle = ' ' :: a.middle from if_neg hm]
    have e : a.first ++ ((' ' :: a.middle) ++ ((' ' :: a.last) ++ (w ++ y))) = a.first ++ (' ' :: (a.middle ++ (' ' :: ((a.last ++ w) ++ y)))) := by simp
    rw [e]
    have hmb : ∀ c, (a.middle ++ (' ' :: ((a.last ++ w) ++ y))).head? = some c → isBlank c = false := by
      intro c hc
      rw [head_append hm] at hc
      exact word_head ha.middle c hc
    have hlb : ∀ c, ((a.last ++ w) ++ y).head? = some c → isBlank c = false := by
      intro c hc
      rw [List.append_assoc, head_append hl] at hc
      exact trimmed_head ha.ends c hc
    have hfs : Stops ['<', ';', '\r', '\n', ' '] (' ' :: (a.middle ++ (' ' :: ((a.last ++ w) ++ y)))) := by intro c hc; cases hc; decide
    have hms : Stops ['<', ';', '\r', '\n', ' '] (' ' :: ((a.last ++ w) ++ y)) := by intro c hc; cases hc; decide
    have hlw : ∀ c ∈ a.last ++ w, c ∉ ['<', ';', '\r', '\n'] := by
      intro c hc
      rcases List.mem_append.mp hc with hc | hc
      · exact ha.last c hc
      · rcases hw with rfl | rfl
        · cases hc
        · rw [List.mem_singleton.mp hc]; decide
    have hlne : a.last ++ w ≠ [] := fun h => hl (List.append_eq_nil_iff.mp h).1
    obtain ⟨v1, h1⟩ := spaces1 (S := S) hA (st := a.first ++ (' ' :: (a.middle ++ (' ' :: ((a.last ++ w) ++ y))))) hmb
    obtain ⟨v2, h2⟩ := spaces1 (S := S) hA (st := a.first ++ (' ' :: (a.middle ++ (' ' :: ((a.last ++ w) ++ y))))) hlb
    obtain ⟨v3, h3⟩ := spaces0 (S := S) hA (st := a.first ++ (' ' :: (a.middle ++ (' ' :: ((a.last ++ w) ++ y))))) hyb
    refine exactly_rule (exactly_act (exactly_scope (exactly_seq (run_text hA (fun _ _ => rfl) ha.named (word_but ha.first) hfs) (exactly_seq h1
      (exactly_seq (exactly_opt (run_text hA (fun _ _ => rfl) hm (word_but ha.middle) hms)) (exactly_seq h2
        (exactly_seq (exactly_opt (run_text hA (fun _ _ => rfl) hlne hlw hy)) h3)))))) (fun s => ?_))
    refine hA 186 s _ _ _ ?_
    have : trimSpace (spaced (a.last ++ w)) = spaced a.last := by
      rw [spaced_append]
      refine trim_spaces (a := []) ha.ends ?_ (fun _ h => nomatch h) ?_
      · intro h; exact hl (List.map_eq_nil_iff.mp h)
      · rcases hw with rfl | rfl <;> decide
    show some (Any.fullName (spaced a.first) (spaced a.middle) (trimSpace (spaced (a.last ++ w)))) = _
    rw [this]
    rfl

/-! ### Authors -/

theorem never_name (hy : NameEnd y) : Never grammar S (.rule R.DocumentAuthorFullName) y :=
  yields_rule (yields_act (yields_scope (never_seq (yields_act (never_run (nameEnd_word hy))))))

theorem never_mail (hy : ∀ c ∈ y.head?, c ≠ '<') : Never grammar S (.rule R.DocumentAuthorEmail) y := by
  refine yields_rule (yields_act (yields_scope (C49.never_after (fun st s s' u h => ?_) (never_seq (no_lit ?_)))))
  · exact still_rest (G := grammar) (a := .andP .any) rfl (eval_rule.mp h)
  · cases y with
    | nil => rfl
    | cons c y => exact C64.lit_head (Ne.symm (hy c rfl))

/-- An address. -/
theorem mail_rule (hA : Obeys A) {e : Text} (h : ∀ c ∈ e, c ∉ ['>', '\r', '\n']) (hne : e ≠ []) {st : Text} :
    Exactly grammar S A st (.rule R.DocumentAuthorEmail) ('<' :: (e ++ '>' :: y)) [.text e] y := by
  refine exactly_rule (exactly_act (exactly_scope (exactly_seq C59.exactly_NotEOF (exactly_seq (exactly_lit (u := e ++ '>' :: y) (by rw [C64.lit_cons]; rfl)) (exactly_seq
    (run_text hA (fun _ _ => rfl) hne h (fun c hc => ?_)) (exactly_lit (u := y) (by rw [C64.lit_cons]; rfl)))))) (fun s => hA 188 s _ _ _ rfl))
  cases hc
  decide

/-- An author as the values of the parser. -/
def value (a : Author) : Text × Text × Text × Text := (shown a.first, shown a.middle, shown a.last, a.email)

/-- What may follow an author. -/
inductive After : Text → Text → Prop
  | next {x : Text} (h : ∀ c, x.head? = some c → isBlank c = false) : After (';' :: ' ' :: x) x
  | end_ {x : Text} (h : Stops ['\r', '\n'] x) : After x x

theorem after_end (h : After x y) : NameEnd x := by
  cases h with
  | next h => intro c hc; cases hc; decide
  | end_ h =>
    intro c hc
    have := h c hc
    simp only [List.mem_cons, List.not_mem_nil, or_false] at this ⊢
    rcases this with rfl | rfl <;> simp

theorem after_no_mail (h : After x y) : ∀ c ∈ x.head?, c ≠ '<' := by
  intro c hc
  cases h with
  | next h => cases hc; decide
  | end_ h =>
    have := h c hc
    simp only [List.mem_cons, List.not_mem_nil, or_false] at this
    rcases this with rfl | rfl <;> decide

theorem stops_blank (h : Stops ['\r', '\n'] x) : ∀ c, x.head? = some c → isBlank c = false := by
  intro c hc
  have := h c hc
  simp only [List.mem_cons, List.not_mem_nil, or_false] at this
  rcases this with rfl | rfl <;> rfl

/-- The separator. -/
theorem after_rule (hA : Obeys A) (h : After x y) {st : Text} : ∃ v1 v2 v3, Exactly grammar S A st (.star (.rule R.Space)) x [v1] x ∧
    ∃ m, Exactly grammar S A st (.opt (.lit [';'])) x [v2] m ∧ Exactly grammar S A st (.star (.rule R.Space)) m [v3] y := by
  cases h with
  | next h =>
    obtain ⟨v1, h1⟩ := spaces0 (S := S) hA (st := st) (x := ';' :: ' ' :: y) (fun c hc => by cases hc; rfl)
    obtain ⟨v3, h3⟩ := spaces1 (S := S) hA (st := st) h
    exact ⟨_, _, _, h1, ' ' :: y, exactly_opt (exactly_lit (by rw [C64.lit_cons]; rfl)), h3⟩
  | end_ h =>
    obtain ⟨v1, h1⟩ := spaces0 (S := S) hA (st := st) (stops_blank h)
    refine ⟨_, _, _, h1, x, exactly_opt_never (no_lit ?_), h1⟩
    cases x with
    | nil => rfl
    | cons c x =>
      refine C64.lit_head ?_
      have := h c rfl
      simp only [List.mem_cons, List.not_mem_nil, or_false] at this
      rcases this with rfl | rfl <;> decide

theorem author_text (a : Author) (x : Text) : a.text ++ x =
    a.first ++ (more a.middle ++ (more a.last ++ (if a.email = [] then x else ' ' :: '<' :: (a.email ++ '>' :: x)))) := by
  unfold Author.text
  split <;> simp

theorem after_length (h : After x y) : y.length ≤ x.length := by
  cases h with
  | next h => simp only [List.length_cons]; omega
  | end_ h => exact Nat.le_refl _

theorem author_rule (hC : AuthorCode S) (hA : Obeys A) {a : Author} (ha : a.Ok) (h : After x y) {st : Text} :
    Exactly grammar S A st (.rule R.DocumentAuthor) (a.text ++ x) [.authors [value a]] y := by
  obtain ⟨v1, v2, v3, h1, m, h2, h3⟩ := after_rule (S := S) hA h (st := a.text ++ x)
  have hp : ∀ s, (S.pred 181 s (a.text ++ x) y).1 = true := by
    intro s
    rw [hC]
    have : named (a.text ++ x) = true := by
      rw [author_text]
      cases hf : a.first with
      | nil => exact absurd hf ha.named
      | cons c f =>
        have := word_but ha.first c (by rw [hf]; exact List.mem_cons_self)
        simpa [named] using this
    rw [this, Bool.true_or, Bool.true_and, decide_eq_true_iff]
    have h1 := List.length_pos_iff.mpr ha.named
    have h2 := after_length h
    unfold Author.text
    simp only [List.length_append]
    omega
  by_cases he : a.email = []
  · have e : a.text ++ x = a.first ++ (more a.middle ++ (more a.last ++ ([] ++ x))) := by rw [author_text, if_pos he]; rfl
    rw [e] at h1 h2 h3 hp ⊢
    refine exactly_rule (exactly_act (exactly_scope (exactly_seq (exactly_opt (name_rule hA ha (.inl rfl) (after_end h))) (exactly_seq
      (exactly_opt_never (never_mail (after_no_mail h))) (exactly_seq h1 (exactly_seq h2 (exactly_seq h3 (exactly_pred hp))))))) (fun s => hA 182 s _ _ _ ?_))
    show some (Any.authors [(shown a.first, shown a.middle, shown a.last, [])]) = _
    rw [value, he]
  · have e : a.text ++ x = a.first ++ (more a.middle ++ (more a.last ++ ([' '] ++ ('<' :: (a.email ++ '>' :: x))))) := by rw [author_text, if_neg he]; rfl
    rw [e] at h1 h2 h3 hp ⊢
    refine exactly_rule (exactly_act (exactly_scope (exactly_seq (exactly_opt (name_rule hA ha (.inr rfl) (fun c hc => by cases hc; decide))) (exactly_seq
      (exactly_opt (mail_rule hA ha.email he)) (exactly_seq h1 (exactly_seq h2 (exactly_seq h3 (exactly_pred hp))))))) (fun s => hA 182 s _ _ _ ?_))
    show some (Any.authors [(shown a.first, shown a.middle, shown a.last, trimSpace a.email)]) = _
    rw [value, trim_id ha.mail]

/-- There is no author at the end of the line. -/
theorem never_author (hC : AuthorCode S) (h : Stops ['\r', '\n'] x) : Never grammar S (.rule R.DocumentAuthor) x := by
  have he : After x x := .end_ h
  refine never_of_ok (fun st s s' u hu => ?_)
  obtain ⟨s1, hu⟩ := ok_act (eval_rule.mp hu)
  have hu := ok_scope hu
  obtain ⟨_, t1, h1, hu⟩ := ok_seq hu
  obtain rfl : x = t1 := Option.some.inj (ok_yields h1 (yields_opt_none (never_name (after_end he))))
  obtain ⟨_, t2, h2, hu⟩ := ok_seq hu
  obtain rfl : x = t2 := Option.some.inj (ok_yields h2 (yields_opt_none (never_mail (after_no_mail he))))
  obtain ⟨_, t3, h3, hu⟩ := ok_seq hu
  obtain ⟨_, t4, h4, hu⟩ := ok_seq hu
  obtain ⟨_, t5, h5, hu⟩ := ok_seq hu
  have := (ok_pred hu).1
  rw [hC] at this
  have := (Bool.and_eq_true_iff.mp this).1
  cases x with
  | nil => cases this
  | cons c x =>
    have hc := h c rfl
    simp only [List.mem_cons, List.not_mem_nil, or_false] at hc
    rcases hc with rfl | rfl <;> simp [named, mailed] at this

/-- The authors of a line. -/
def authorsText : List Author → Text
  | [] => []
  | [a] => a.text
  | a :: as => a.text ++ (';' :: ' ' :: authorsText as)

theorem authorsText_eq : ∀ as : List Author, "; ".toList.intercalate (as.map Author.text) = authorsText as
  | [] => rfl
  | [a] => by simp [authorsText, List.intercalate]
  | a :: b :: as => by
    have := authorsText_eq (b :: as)
    simp only [List.intercalate, List.map_cons, List.intersperse, List.flatten_cons] at this ⊢
    rw [this]
    rfl

theorem text_head {a : Author} (ha : a.Ok) (x : Text) : ∀ c, (a.text ++ x).head? = some c → isBlank c = false := by
  intro c hc
  rw [author_text, head_append ha.named] at hc
  exact word_head ha.first c hc

theorem authors_head : ∀ {as : List Author}, (∀ a ∈ as, a.Ok) → as ≠ [] → ∀ c, (authorsText as ++ x).head? = some c → isBlank c = false
  | [], _, h => absurd rfl h
  | [a], ha, _ => text_head (ha a List.mem_cons_self) x
  | a :: b :: as, ha, _ => by
    intro c hc
    refine text_head (ha a List.mem_cons_self) (';' :: ' ' :: authorsText (b :: as) ++ x) c ?_
    rw [← hc]
    simp [authorsText]

theorem authors_star (hC : AuthorCode S) (hA : Obeys A) (hx : Stops ['\r', '\n'] x) {st : Text} : ∀ {as : List Author}, (∀ a ∈ as, a.Ok) →
    Exactly grammar S A st (.star (.rule R.DocumentAuthor)) (authorsText as ++ x) [.slice (as.map (fun a => .authors [value a]))] x
  | [], _ => exactly_star_stop (never_author hC hx)
  | [a], ha => exactly_star_step (v := [.authors [value a]]) (author_rule hC hA (ha a List.mem_cons_self) (.end_ hx)) (exactly_star_stop (never_author hC hx))
  | a :: b :: as, ha => by
    have hb : ∀ a ∈ b :: as, a.Ok := fun d hd => ha d (List.mem_cons_of_mem _ hd)
    refine exactly_star_step (v := [.authors [value a]]) (u := authorsText (b :: as) ++ x) ?_ (authors_star hC hA hx hb)
    rw [show authorsText (a :: b :: as) ++ x = a.text ++ (';' :: ' ' :: (authorsText (b :: as) ++ x)) by simp [authorsText]]
    exact author_rule hC hA (ha a List.mem_cons_self) (.next (authors_head hb (fun h => nomatch h)))

theorem newAuthors_map : ∀ as : List Author, newAuthors (as.map (fun a => .authors [value a])) = some (as.map value)
  | [] => rfl
  | a :: as => by
    show (newAuthors (as.map (fun a => Any.authors [value a]))).map ([value a] ++ ·) = _
    rw [newAuthors_map as]
    rfl

theorem cut_stops (hz : Cut z r) : Stops ['\r', '\n'] z := by
  cases hz with
  | line => intro c hc; cases hc; decide
  | eof => intro c hc; cases hc

/-- The line of authors. -/
theorem authors_rule (hC : AuthorCode S) (hA : Obeys A) (hz : Cut z r) {as : List Author} (ha : ∀ a ∈ as, a.Ok) (hne : as ≠ []) {st : Text} :
    Exactly grammar S A st (.rule R.DocumentAuthors) (authorsText as ++ z) [.authors (as.map value)] r := by
  obtain ⟨v, hv⟩ := C62.eolV (S := S) hA hz
  obtain ⟨v1, h1⟩ := spaces0 (S := S) hA (st := authorsText as ++ z) (authors_head ha hne)
  refine exactly_rule (exactly_act (exactly_scope (exactly_seq h1 (exactly_seq ?_ (hv _))) (v := [.slice v1] ++ ([.slice (as.map (fun a => .authors [value a]))] ++ [v]))) (fun s => hA 180 s _ _ _ ?_))
  · have hx := cut_stops hz
    cases as with
    | nil => exact absurd rfl hne
    | cons a as =>
      cases as with
      | nil => exact exactly_plus (v := [.authors [value a]]) (author_rule hC hA (ha a List.mem_cons_self) (.end_ hx)) (exactly_star_stop (never_author hC hx))
      | cons b as =>
        have hb : ∀ a ∈ b :: as, a.Ok := fun d hd => ha d (List.mem_cons_of_mem _ hd)
        refine exactly_plus (v := [.authors [value a]]) (u := authorsText (b :: as) ++ z) ?_ (authors_star hC hA hx hb)
        rw [show authorsText (a :: b :: as) ++ z = a.text ++ (';' :: ' ' :: (authorsText (b :: as) ++ z)) by simp [authorsText]]
        exact author_rule hC hA (ha a List.mem_cons_self) (.next (authors_head hb (fun h => nomatch h)))
  · show (newAuthors _).map Any.authors = _
    rw [newAuthors_map]
    rfl

/-! ### Revisions -/

theorem lower_v {c : Char} (h : lower 'v' = lower c) : c = 'v' ∨ c = 'V' := by
  unfold lower at h
  rw [if_neg (by decide)] at h
  split at h
  · next hc =>
    right
    have h2 : c.toNat + 32 < 0xd800 := by
      have : c.toNat ≤ 'Z'.toNat := hc.2
      have : 'Z'.toNat = 90 := rfl
      omega
    have h3 : (Char.ofNat (c.toNat + 32)).toNat = c.toNat + 32 := by
      rw [Char.ofNat, dif_pos (Or.inl h2)]
      simp only [Char.ofNatAux, Char.toNat, UInt32.toNat]
      rfl
    have h4 : 'v'.toNat = c.toNat + 32 := by rw [h]; exact h3
    have : c.toNat = 'V'.toNat := by
      have e1 : 'v'.toNat = 118 := rfl
      have e2 : 'V'.toNat = 86 := rfl
      omega
    exact Char.toNat_inj.mp this
  · exact .inl h.symm

theorem has_digit (c : Char) : (Cls.mk false [] [('0', '9')] false false).has S.letter S.number c = c.isDigit := by
  rw [C64.has_range]
  rfl

theorem digit_not (c : Char) (h : c.isDigit = true) : c ∉ [':', ',', '\r', '\n', ' ', '\t', 'v', 'V', '/'] := by
  intro hm
  simp only [List.mem_cons, List.not_mem_nil, or_false] at hm
  rcases hm with rfl | rfl | rfl | rfl | rfl | rfl | rfl | rfl | rfl <;> exact absurd h (by decide)

/-- The remark, if there is one. -/
def remarkText (r : Text) : Text := if r = [] then [] else ": ".toList ++ r

theorem remark_rule (hA : Obeys A) (hz : Cut z r) {w : Text} (hw : ∀ c ∈ w, c ∉ ['\r', '\n']) (ht : Trimmed w) {st : Text} :
    ∃ v1 v2 m, Exactly grammar S A st (.opt (.lit [':'])) (remarkText w ++ z) [v1] m ∧ Exactly grammar S A st (.opt (.rule R.DocumentRevisionRemark)) m [v2] z ∧
      trimSpace (trimPrefix ':' (textOf v2)) = w := by
  have hs : Stops ['\r', '\r', '\n'] z := by
    intro c hc
    have := cut_stops hz c hc
    simp only [List.mem_cons, List.not_mem_nil, or_false] at this ⊢
    rcases this with h | h <;> simp [h]
  unfold remarkText
  by_cases hne : w = []
  · rw [if_pos hne, hne]
    refine ⟨_, _, _, exactly_opt_never (no_lit ?_), exactly_opt_never (yields_rule (yields_act (never_run hs))), rfl⟩
    cases hz <;> rfl
  · rw [if_neg hne]
    refine ⟨_, _, _, exactly_opt (exactly_lit (u := ' ' :: (w ++ z)) (by show matchLit [':'] (':' :: (' ' :: (w ++ z))) = _; rw [C64.lit_cons]; rfl)),
      exactly_opt (exactly_rule (run_text hA (w := ' ' :: w) (fun _ _ => rfl) (fun h => nomatch h) (fun c hc => ?_) hs)), ?_⟩
    · rcases List.mem_cons.mp hc with rfl | hc
      · decide
      · have := hw c hc
        simp only [List.mem_cons, List.not_mem_nil, or_false, not_or] at this ⊢
        exact ⟨this.1, this.1, this.2⟩
    · show trimSpace (' ' :: w) = w
      have := trim_spaces ht hne (a := [' ']) (b := []) (by decide) (fun _ h => nomatch h)
      rwa [List.append_nil] at this

theorem remark_stops (hz : Cut z r) (w : Text) : Stops [':', '\r', '\n'] (remarkText w ++ z) := by
  unfold remarkText
  split
  · intro c hc
    have := cut_stops hz c hc
    exact List.mem_cons_of_mem _ this
  · intro c hc
    cases hc
    decide

/-- The date after a number, if there is one. -/
def dateText (d : Text) : Text := if d = [] then [] else ", ".toList ++ d

theorem date_rule (hA : Obeys A) (hx : Stops [':', '\r', '\n'] x) {d : Text} (hd : ∀ c ∈ d, c ∉ [':', '\r', '\n']) (ht : Trimmed d) {st : Text} :
    ∃ v1 v2 m, Exactly grammar S A st (.opt (.lit [','])) (dateText d ++ x) [v1] m ∧ Exactly grammar S A st (.opt (.rule R.DocumentRevisionDate)) m [v2] x ∧
      trimSpace (textOf v2) = d := by
  unfold dateText
  by_cases hne : d = []
  · rw [if_pos hne, hne]
    refine ⟨_, _, _, exactly_opt_never (no_lit ?_), exactly_opt_never (yields_rule (yields_act (never_run hx))), rfl⟩
    cases x with
    | nil => rfl
    | cons c x =>
      refine C64.lit_head ?_
      have := hx c rfl
      simp only [List.mem_cons, List.not_mem_nil, or_false] at this
      rcases this with rfl | rfl | rfl <;> decide
  · rw [if_neg hne]
    refine ⟨_, _, _, exactly_opt (exactly_lit (u := ' ' :: (d ++ x)) (by show matchLit [','] (',' :: (' ' :: (d ++ x))) = _; rw [C64.lit_cons]; rfl)),
      exactly_opt (exactly_rule (run_text hA (w := ' ' :: d) (fun _ _ => rfl) (fun h => nomatch h) (fun c hc => ?_) hx)), ?_⟩
    · rcases List.mem_cons.mp hc with rfl | hc
      · decide
      · exact hd c hc
    · show trimSpace (' ' :: d) = d
      have := trim_spaces ht hne (a := [' ']) (b := []) (by decide) (fun _ h => nomatch h)
      rwa [List.append_nil] at this

theorem revision_text (v : Revision) (x : Text) : v.text ++ x = (if v.number = [] then v.date else v.mark ++ (v.number ++ dateText v.date)) ++ (remarkText v.remark ++ x) := by
  unfold Revision.text remarkText dateText
  simp

/-- The number of a revision. -/
theorem number_rule (hA : Obeys A) {al : Char → Bool} {v : Revision} (hv : v.Ok al) (hne : v.number ≠ []) (hx : Stops [':', ',', '\r', '\n'] x) (hc : v.mark = [] → x.head? = some ',') {st : Text} :
    Exactly grammar S A st (.rule R.DocumentRevisionNumber) (v.mark ++ (v.number ++ x)) [.text (v.mark ++ v.number)] x := by
  obtain ⟨c, d, n, hn, hcd, hdn⟩ : ∃ c d n, v.number = c :: d :: n ∧ c.isDigit = true ∧ ∀ e ∈ d :: n, e ∉ [':', ',', '\r', '\n'] := by
    have h2 := hv.two hne
    cases h : v.number with
    | nil => exact absurd h hne
    | cons c n =>
      cases n with
      | nil => rw [h] at h2; simp at h2
      | cons d n => exact ⟨c, d, n, rfl, hv.digit c (by rw [h]; rfl), fun e he => hv.number e (by rw [h]; exact List.mem_cons_of_mem _ he)⟩
  have hspan : span (v.mark ++ (v.number ++ x)) x = v.mark ++ v.number := by rw [← List.append_assoc]; exact C58.span_append _ _
  have hrun : Yields grammar S (.plus (.cls (but [':', ',', '\r', '\n']))) ((d :: n) ++ x) (some x) := yields_run (fun h => nomatch h) hdn hx
  have hcls : Yields grammar S (.cls ⟨false, [], [('0', '9')], false, false⟩) (c :: ((d :: n) ++ x)) (some ((d :: n) ++ x)) := yields_cls (by rw [has_digit]; exact hcd)
  have hnum : v.number ++ x = c :: ((d :: n) ++ x) := by rw [hn]; rfl
  rcases hv.mark with hm | hm | hm
  · refine exactly_rule (exactly_alt_right ?_ (exactly_of_yields (yields_scope ?_) (fun s w => by rw [hspan]; exact hA 193 s w _ _ rfl)))
    · rw [hm, hnum]
      refine yields_act (yields_scope (never_seq (yields_litI.to ?_)))
      unfold matchLitI
      refine if_neg (fun h => ?_)
      have := digit_not c hcd
      rcases lower_v h with rfl | rfl <;> exact this (by decide)
    · rw [hm, hnum]
      refine yields_seq (u := c :: ((d :: n) ++ x)) (yields_opt_none (yields_litI.to ?_)) (yields_seq hcls (yields_seq hrun (yields_seq ?_ (yields_andP ?_))))
      · unfold matchLitI
        refine if_neg (fun h => ?_)
        have := digit_not c hcd
        rcases lower_v h with rfl | rfl <;> exact this (by decide)
      · refine yields_star_stop ?_
        cases x with
        | nil => exact absurd (hc hm) (fun h => nomatch h)
        | cons e x =>
          have := Option.some.inj (hc hm)
          subst this
          exact never_Space (by decide)
      · cases x with
        | nil => exact absurd (hc hm) (fun h => nomatch h)
        | cons e x =>
          have := Option.some.inj (hc hm)
          subst this
          exact (yields_lit.to (o' := some x) (by rw [C64.lit_cons]; rfl)).sure
  all_goals
  · refine exactly_rule (exactly_alt_left (exactly_of_yields (yields_scope ?_) (fun s w => by rw [hspan]; exact hA 192 s w _ _ rfl)))
    rw [hm, hnum]
    exact yields_seq (u := c :: ((d :: n) ++ x)) (yields_litI.to rfl) (yields_seq hcls hrun)

/-- A date is not read as a number. -/
theorem never_number {d : Text} (hd : ∀ c ∈ d, c ∉ [':', '\r', '\n']) (hn : ¬ Numeric d) (hx : Stops [':', '\r', '\n'] x) :
    Never grammar S (.rule R.DocumentRevisionNumber) (d ++ x) := by
  have litI : ∀ {st t u : Text} {s s' : σ}, Eval grammar S (.litI ['v']) st s t (.ok s' u) → ∃ c, (c = 'v' ∨ c = 'V') ∧ t = c :: u := by
    intro st t u s s' h
    have := eval_litI.mp h
    cases t with
    | nil => cases this
    | cons c t =>
      unfold matchLitI at this
      by_cases hl : lower 'v' = lower c
      · rw [if_pos hl] at this; cases this; exact ⟨c, lower_v hl, rfl⟩
      · rw [if_neg hl] at this; cases this
  have mem : ∀ {c : Char} {t : Text}, d ++ x = c :: t → c ∉ [':', '\r', '\n'] → ∃ d', d = c :: d' ∧ t = d' ++ x := by
    intro c t h hc
    cases d with
    | nil =>
      rw [List.nil_append] at h
      exact absurd (hx c (by rw [h]; rfl)) hc
    | cons e d' => obtain ⟨rfl, h'⟩ := List.cons.inj h; exact ⟨d', rfl, h'.symm⟩
  have mem' : ∀ {d' : Text} {c : Char} {t : Text}, (∀ c ∈ d', c ∈ d) → d' ++ x = c :: t → c ∉ [':', '\r', '\n'] → ∃ d'', d' = c :: d'' ∧ t = d'' ++ x := by
    intro d' c t hsub h hc
    cases d' with
    | nil =>
      rw [List.nil_append] at h
      exact absurd (hx c (by rw [h]; rfl)) hc
    | cons e d'' => obtain ⟨rfl, h'⟩ := List.cons.inj h; exact ⟨d'', rfl, h'.symm⟩
  have dig : ∀ {c : Char}, c.isDigit = true → c ∉ [':', '\r', '\n'] := by
    intro c hc hm
    refine digit_not c hc ?_
    simp only [List.mem_cons, List.not_mem_nil, or_false] at hm ⊢
    rcases hm with h | h | h <;> simp [h]
  have vnot : ∀ {c : Char}, c = 'v' ∨ c = 'V' → c ∉ [':', '\r', '\n'] := by
    rintro c (rfl | rfl) <;> decide
  refine never_of_ok (fun st s s' u h => ?_)
  rcases ok_alt (eval_rule.mp h) with ⟨s1, h⟩ | ⟨s1, s2, h⟩
  · obtain ⟨_, h⟩ := ok_act h
    obtain ⟨_, t1, h1, h⟩ := ok_seq (ok_scope h)
    obtain ⟨c, hc, e⟩ := litI h1
    obtain ⟨d', rfl, rfl⟩ := mem e (vnot hc)
    obtain ⟨_, t2, h2, h⟩ := ok_seq h
    obtain ⟨c2, e2, hc2⟩ := ok_cls h2
    rw [has_digit] at hc2
    obtain ⟨d'', rfl, _⟩ := mem' (fun c hc => List.mem_cons_of_mem _ hc) e2 (dig hc2)
    exact hn (.inl ⟨hc, hc2⟩)
  · obtain ⟨_, h⟩ := ok_act h
    obtain ⟨_, t1, h1, h⟩ := ok_seq (ok_scope h)
    obtain ⟨_, t2, h2, h⟩ := ok_seq h
    obtain ⟨c2, e2, hc2⟩ := ok_cls h2
    rw [has_digit] at hc2
    rcases eval_opt.mp h1 with ⟨_, _, e⟩ | ⟨_, _, h1, e⟩
    · cases e
      obtain ⟨d', rfl, rfl⟩ := mem e2 (dig hc2)
      obtain ⟨_, t3, h3, h⟩ := ok_seq h
      obtain ⟨c3, x3, e3, hall, _⟩ := ok_plus h3
      obtain ⟨_, t4, h4, h⟩ := ok_seq h
      -- the comma
      have h5 : ∃ y, t4 = ',' :: y := by
        rcases eval_andP.mp h with ⟨_, _, e⟩ | ⟨s5, v5, h5, e⟩
        · cases e
        · exact ⟨_, C64.ok_char (by decide) h5⟩
      obtain ⟨y, rfl⟩ := h5
      -- spaces between
      obtain ⟨sp, hsp, hblank⟩ : ∃ sp, t3 = sp ++ ',' :: y ∧ ∀ c ∈ sp, isBlank c = true := by
        have := Option.some.inj (ok_yields h4 (yields_spaces (S := S)))
        exact ⟨t3.takeWhile isBlank, by rw [← this]; exact (List.takeWhile_append_dropWhile).symm, fun c hc => C59.mem_takeWhile hc⟩
      have hpre : d' ++ x = (c3 :: x3 ++ sp) ++ ',' :: y := by rw [e3, hsp]; simp
      have hin : ∀ e ∈ (c3 :: x3 ++ sp), e ∉ [':', '\r', '\n'] := by
        intro e he
        rcases List.mem_append.mp he with he | he
        · have := hall e he
          rw [has_but] at this
          simp only [List.mem_cons, List.not_mem_nil, or_false, not_or]
          simp at this
          exact ⟨this.1, this.2.2.1, this.2.2.2⟩
        · have := hblank e he
          simp only [isBlank, Bool.or_eq_true, beq_iff_eq] at this
          rcases this with rfl | rfl <;> decide
      have hcomma : ',' ∈ d' := by
        rcases List.append_eq_append_iff.mp hpre with ⟨a, h1, h2⟩ | ⟨a, h1, h2⟩
        · cases a with
          | nil =>
            rw [List.nil_append] at h2
            exact absurd (hx ',' (by rw [h2]; rfl)) (by decide)
          | cons e a =>
            exact absurd (hx e (by rw [h2]; rfl)) (hin e (by rw [h1]; simp))
        · cases a with
          | nil =>
            rw [List.nil_append] at h2
            exact absurd (hx ',' (by rw [← h2]; rfl)) (by decide)
          | cons e a =>
            obtain ⟨rfl, _⟩ := List.cons.inj h2
            rw [h1]
            simp
      cases d' with
      | nil => cases hcomma
      | cons e d' => exact hn (.inr ⟨hc2, List.mem_cons_of_mem _ hcomma⟩)
    · cases e
      obtain ⟨c, hc, e⟩ := litI h1
      obtain ⟨d', rfl, rfl⟩ := mem e (vnot hc)
      obtain ⟨d'', rfl, _⟩ := mem' (fun c hc => List.mem_cons_of_mem _ hc) e2 (dig hc2)
      exact hn (.inl ⟨hc, hc2⟩)

/-- A revision as the value of the parser. -/
def revisionValue (v : Revision) : Any := .revision v.number v.date v.remark

theorem stops_comma (h : Stops [':', '\r', '\n'] x) : Stops [':', ',', '\r', '\n'] x := by
  intro c hc
  have := h c hc
  simp only [List.mem_cons, List.not_mem_nil, or_false] at this ⊢
  rcases this with h | h | h <;> simp [h]

theorem dateText_stops {d : Text} (hx : Stops [':', '\r', '\n'] x) : Stops [':', ',', '\r', '\n'] (dateText d ++ x) := by
  unfold dateText
  split
  · exact stops_comma hx
  · intro c hc; cases hc; decide

theorem trim_number {al : Char → Bool} {v : Revision} (hv : v.Ok al) : trimSpace (trimPrefix 'V' (trimPrefix 'v' (v.mark ++ v.number))) = v.number := by
  have h0 : trimPrefix 'V' (trimPrefix 'v' v.number) = v.number := by
    cases hn : v.number with
    | nil => rfl
    | cons c n =>
      have hc := digit_not c (hv.digit c (by rw [hn]; rfl))
      have h1 : c ≠ 'v' := fun h => hc (by rw [h]; decide)
      have h2 : c ≠ 'V' := fun h => hc (by rw [h]; decide)
      rw [show trimPrefix 'v' (c :: n) = c :: n from if_neg h1]
      exact if_neg h2
  have h1 : trimPrefix 'V' v.number = v.number := by
    cases hn : v.number with
    | nil => rfl
    | cons c n =>
      have hc := digit_not c (hv.digit c (by rw [hn]; rfl))
      exact if_neg (fun h => hc (by rw [h]; decide))
  have : trimPrefix 'V' (trimPrefix 'v' (v.mark ++ v.number)) = v.number := by
    rcases hv.mark with hm | hm | hm <;> rw [hm]
    · exact h0
    · exact h1
    · rfl
  rw [this]
  exact trim_id hv.ends

/-- The line of a revision begins with a letter or a number. -/
theorem revision_head (hS : Code S) {v : Revision} (hv : v.Ok (alnum S)) (x : Text) : ∃ c t, v.text ++ x = c :: t ∧ alnum S c = true := by
  rw [revision_text]
  by_cases hn : v.number = []
  · rw [if_pos hn]
    have hm := (hv.none_ hn).1
    have hd := hv.bare hm
    cases h : v.date with
    | nil => exact absurd h hd
    | cons c d => exact ⟨c, _, rfl, (hv.none_ hn).2.2 c (by rw [h]; rfl)⟩
  · rw [if_neg hn]
    rcases hv.mark with hm | hm | hm
    · cases h : v.number with
      | nil => exact absurd h hn
      | cons c n =>
        refine ⟨c, n ++ dateText v.date ++ (remarkText v.remark ++ x), by rw [hm]; simp, ?_⟩
        have hc := hv.digit c (by rw [h]; rfl)
        have ha : c.toNat < 128 := by
          have := (Char.isDigit_iff_toNat.mp hc).2
          have h9 : '9'.toNat = 57 := rfl
          omega
        rw [alnum, (hS.ascii c ha).1, (hS.ascii c ha).2, hc]
        simp
    all_goals
    · rw [hm]
      exact ⟨_, _, rfl, by rw [alnum, (hS.ascii _ (by decide)).1, (hS.ascii _ (by decide)).2]; decide⟩

/-- The line of a revision. -/
theorem revision_rule (hS : Code S) (hA : Obeys A) (hz : Cut z r) {v : Revision} (hv : v.Ok (alnum S)) {st : Text} :
    Exactly grammar S A st (.rule R.DocumentRevision) (v.text ++ z) [revisionValue v] r := by
  obtain ⟨ve, he⟩ := C62.eolV (S := S) hA hz
  obtain ⟨c, t, ec, hc⟩ := revision_head hS hv z
  have hcm : c ∉ [' ', '\t', ':'] := C59.alnum_not_mem hS hc _ (by decide)
  have hb : ∀ d, (v.text ++ z).head? = some d → isBlank d = false := by
    intro d hd
    rw [ec] at hd
    cases hd
    cases hb : isBlank c with
    | false => rfl
    | true =>
      simp only [isBlank, Bool.or_eq_true, beq_iff_eq] at hb
      rcases hb with rfl | rfl <;> exact absurd hcm (by decide)
  obtain ⟨vs, hs⟩ := spaces0 (S := S) hA (st := v.text ++ z) hb
  have hnot : Never grammar S (.lit [':']) (v.text ++ z) := by
    rw [ec]
    exact no_lit (C64.lit_head (fun h => hcm (by rw [← h]; decide)))
  refine exactly_rule (exactly_act (exactly_scope (exactly_seq hs (exactly_seq (exactly_notP hnot) (exactly_seq (u := z) (v := [revisionValue v]) ?_ (he _))))) (fun s => hA 191 s _ _ _ rfl))
  rw [revision_text]
  have hx := remark_stops hz v.remark
  by_cases hn : v.number = []
  · rw [if_pos hn]
    obtain ⟨hm, hnum, _⟩ := hv.none_ hn
    obtain ⟨v1, v2, m, h1, h2, h3⟩ := remark_rule (S := S) hA hz hv.remark hv.said (st := v.date ++ (remarkText v.remark ++ z))
    refine exactly_alt_right (yields_act (yields_scope (never_seq (never_number hv.date hnum hx)))) (exactly_act (exactly_scope (exactly_seq
      (exactly_rule (run_text hA (fun _ _ => rfl) (hv.bare hm) hv.date hx)) (exactly_seq h1 h2))) (fun s => hA 190 s _ _ _ ?_))
    show some (Any.revision [] (trimSpace v.date) (trimSpace (trimPrefix ':' (textOf v2)))) = some (Any.revision v.number v.date v.remark)
    rw [h3, trim_id hv.day, hn]
  · rw [if_neg hn, List.append_assoc, List.append_assoc]
    obtain ⟨v1, v2, m, h1, h2, h3⟩ := remark_rule (S := S) hA hz hv.remark hv.said (st := v.mark ++ (v.number ++ (dateText v.date ++ (remarkText v.remark ++ z))))
    obtain ⟨v4, v5, m', h4, h5, h6⟩ := date_rule (S := S) hA hx hv.date hv.day (st := v.mark ++ (v.number ++ (dateText v.date ++ (remarkText v.remark ++ z))))
    refine exactly_alt_left (exactly_act (exactly_scope (exactly_seq (number_rule hA hv hn (dateText_stops hx) (fun hm => ?_)) (exactly_seq h4 (exactly_seq h5 (exactly_seq h1 h2)))))
      (fun s => hA 189 s _ _ _ ?_))
    · rw [dateText, if_neg (hv.bare hm)]
      rfl
    · show some (Any.revision (trimSpace (trimPrefix 'V' (trimPrefix 'v' (v.mark ++ v.number)))) (trimSpace (textOf v5)) (trimSpace (trimPrefix ':' (textOf v2)))) =
        some (Any.revision v.number v.date v.remark)
      rw [h3, h6, trim_number hv]

/-! ### The end of the header -/

/-- The end of the document, or a blank line. -/
def Apart (y : Text) : Prop := ∃ w x, y = w ++ x ∧ (∀ c ∈ w, isBlank c = true) ∧ Stops ['\r', '\n'] x

theorem apart_head (h : Apart y) : ∀ c ∈ y.head?, c ∉ ['/', ':'] := by
  obtain ⟨w, x, rfl, hw, hx⟩ := h
  intro c hc
  cases w with
  | nil =>
    have := hx c hc
    simp only [List.mem_cons, List.not_mem_nil, or_false] at this
    rcases this with rfl | rfl <;> decide
  | cons d w =>
    cases hc
    have := hw c List.mem_cons_self
    simp only [isBlank, Bool.or_eq_true, beq_iff_eq] at this
    rcases this with rfl | rfl <;> decide

theorem starts_none {F : List Char} {t : Text} (h : ∀ c ∈ t.head?, c ∉ F) (e : Exp) (he : starts grammar F 30 e = true) : Never grammar S e t := by
  cases t with
  | nil => exact starts_never_nil 30 e he
  | cons c t => exact starts_never (h c rfl) 30 e he

/-- Comments, which are left out of headers. -/
abbrev comments : Exp := .alt (.rule R.SinglelineComment) (.rule R.CommentBlock)

theorem never_comments {t : Text} (h : ∀ c ∈ t.head?, c ∉ ['/', ':']) : Never grammar S comments t := starts_none h _ (by decide +kernel)

theorem never_more {t : Text} (h : ∀ c ∈ t.head?, c ∉ ['/', ':']) : Never grammar S (.alt (.rule R.AttributeDeclaration) (.alt (.rule R.AttributeReset) comments)) t :=
  starts_none h _ (by decide +kernel)

theorem yields_blank {w x : Text} (hw : ∀ c ∈ w, isBlank c = true) (hx : Stops ['\r', '\n'] x) : Yields grammar S (.star (.rule R.Space)) (w ++ x) (some x) := by
  refine yields_spaces.to ?_
  rw [List.dropWhile_append_of_pos hw]
  cases x with
  | nil => rfl
  | cons c x =>
    rw [List.dropWhile_cons_of_neg]
    rw [stops_blank hx c rfl]
    decide

theorem never_authors (hC : AuthorCode S) (h : Apart y) : Never grammar S (.rule R.DocumentAuthorsAndRevision) y := by
  obtain ⟨w, x, rfl, hw, hx⟩ := h
  refine yields_rule (yields_act (yields_scope (C49.never_after (fun _ _ _ _ h => C49.notP_stays h) (never_seq (yields_rule (yields_act (yields_scope ?_)))))))
  exact yields_seq (yields_blank hw hx) (never_seq (never_plus (never_author hC hx)))

theorem never_revision (h : Apart y) : Never grammar S (.rule R.DocumentRevision) y := by
  obtain ⟨w, x, rfl, hw, hx⟩ := h
  refine yields_rule (yields_act (yields_scope (yields_seq (yields_blank hw hx) (C49.never_after (fun _ _ _ _ h => C49.notP_stays h) (never_seq ?_)))))
  have hs : Stops [':', '\r', '\n'] x := fun c hc => List.mem_cons_of_mem _ (hx c hc)
  refine yields_alt_right (yields_act (yields_scope (never_seq ?_))) (yields_act (yields_scope (never_seq (yields_rule (yields_act (never_run hs))))))
  exact never_number (d := []) (fun _ h => nomatch h) id hs

/-! ### The header -/

/-- What the parser makes of the header. -/
def decls (h : Head) : List Any :=
  (if h.authors = [] then [] else [.declare "authors" (.authors (h.authors.map value))]) ++ h.revision.toList.map (fun v => .declare "revision" (revisionValue v))

def headEl (h : Head) : Any := .header [] [.str h.title] (decls h)

/-- The line of the title. -/
def titleLine (h : Head) : Text := '=' :: (h.gap ++ (h.title ++ h.trail))

theorem titleLine_eq (h : Head) (x : Text) : titleLine h ++ x = '=' :: (h.gap ++ ((h.title ++ h.trail) ++ x)) := by simp [titleLine]

theorem documentTitle_rule (hS : Code S) (hA : Obeys A) (hz : Cut z r) {h : Head} (hh : Heading.Ok ⟨1, h.gap, h.title, h.trail⟩) {st : Text} :
    Exactly grammar S A st (.rule R.DocumentTitle) (titleLine h ++ z) [.slice [.str (h.title ++ h.trail)]] r := by
  rw [titleLine_eq]
  obtain ⟨v, hv⟩ := C62.eolV (S := S) hA hz
  obtain ⟨c, t, ht, hc⟩ := C63.title_head (x := h.trail ++ z) hh
  refine exactly_rule (exactly_act (exactly_scope (exactly_seq (exactly_lit (by rw [C64.lit_cons]; rfl)) (exactly_seq
    (exactly_rule (exactly_of_yields (C63.yields_gap hh.gap hh.apart (x := (h.title ++ h.trail) ++ z) ?_) (y := .text h.gap) (fun s v => ?_))) (exactly_seq
    (C63.title_rule hS hA hz (C63.calm_heading hh) ?_) (hv _))))) (fun s => hA 178 s _ _ _ rfl))
  · intro b hb
    rw [List.append_assoc] at hb
    rw [show h.title ++ (h.trail ++ z) = c :: t from ht] at hb
    rw [← Option.some.inj hb]
    exact hc
  · rw [C58.span_append]
    exact hA _ s v _ _ rfl
  · intro e
    exact hh.some_ (List.append_eq_nil_iff.mp e).1

/-- The lines after the title. -/
theorem authorsAndRevision_rule (hS : Code S) (hC : AuthorCode S) (hA : Obeys A) (hz : Cut z y) (hy : Apart y) {h : Head} (hh : h.Ok (alnum S)) (hne : h.authors ≠ []) {st : Text} :
    ∃ v, Exactly grammar S A st (.rule R.DocumentAuthorsAndRevision) (authorsText h.authors ++ (match h.revision with | none => z | some v => '\n' :: (v.text ++ z)))
      [.slice [.authors (h.authors.map value), v]] y ∧ (h.revision = none → v = .nil) ∧ ∀ w, h.revision = some w → v = revisionValue w := by
  have hhead : ∀ x c, (authorsText h.authors ++ x).head? = some c → alnum S c = true := by
    intro x c hc
    refine ?_
    cases ha : h.authors with
    | nil => exact absurd ha hne
    | cons a as =>
      refine hh.start a (by rw [ha]; rfl) c ?_
      have hf := (hh.authors a (by rw [ha]; exact List.mem_cons_self)).named
      rw [ha] at hc
      cases as with
      | nil =>
        rw [authorsText, author_text, head_append hf] at hc
        exact hc
      | cons b as =>
        rw [authorsText, List.append_assoc, author_text, head_append hf] at hc
        exact hc
        exact fun h => nomatch h
  have hnot : ∀ x, Never grammar S (.lit [':']) (authorsText h.authors ++ x) := by
    intro x
    refine no_lit ?_
    cases e : authorsText h.authors ++ x with
    | nil => rfl
    | cons c t =>
      refine C64.lit_head (fun hc => ?_)
      have := C59.alnum_not_mem hS (hhead x c (by rw [e]; rfl)) [':'] (by decide)
      exact this (by rw [← hc]; exact List.mem_singleton.mpr rfl)
  cases hr : h.revision with
  | none =>
    refine ⟨.nil, ?_, fun _ => rfl, fun w hw => nomatch hw⟩
    exact exactly_rule (exactly_act (exactly_scope (exactly_seq (exactly_notP (hnot _)) (exactly_seq (authors_rule hC hA hz hh.authors hne) (exactly_seq
      (exactly_star_stop (never_comments (apart_head hy))) (exactly_opt_never (never_revision hy)))))) (fun s => hA 179 s _ _ _ rfl))
  | some v =>
    have hv := (hh.revision v hr).1
    refine ⟨revisionValue v, ?_, (fun h => nomatch h), fun w hw => by rw [Option.some.inj hw]⟩
    have hcom : ∀ c ∈ (v.text ++ z).head?, c ∉ ['/', ':'] := by
      intro c hc
      obtain ⟨d, t, e, hd⟩ := revision_head hS hv z
      rw [e] at hc
      cases hc
      exact C59.alnum_not_mem hS hd _ (by decide)
    exact exactly_rule (exactly_act (exactly_scope (exactly_seq (exactly_notP (hnot _)) (exactly_seq (authors_rule hC hA .line hh.authors hne) (exactly_seq
      (exactly_star_stop (never_comments hcom)) (exactly_opt (revision_rule hS hA hz hv)))))) (fun s => hA 179 s _ _ _ rfl))

/-- The header, with `z` at the end of its last line. -/
def headText (h : Head) (z : Text) : Text :=
  titleLine h ++ (if h.authors = [] then z else '\n' :: (authorsText h.authors ++ (match h.revision with | none => z | some v => '\n' :: (v.text ++ z))))

theorem headText_eq {al : Char → Bool} {h : Head} (hh : h.Ok al) (z : Text) : joinLF h.lines ++ z = headText h z := by
  unfold Head.lines headText
  by_cases hne : h.authors = []
  · have : h.revision = none := by
      cases hr : h.revision with
      | none => rfl
      | some v => exact absurd hne (hh.revision v hr).2
    rw [if_pos hne, if_pos hne, this]
    rfl
  · rw [if_neg hne, if_neg hne, authorsText_eq]
    cases hr : h.revision with
    | none => simp [joinLF, titleLine]
    | some v => simp [joinLF, titleLine]

theorem header_rule (hS : Code S) (hC : AuthorCode S) (hT : ∀ s st t, (S.pred 176 s st t).1 = true) (hA : Obeys A) (hz : Cut z y) (hy : Apart y) {h : Head} (hh : h.Ok (alnum S)) {st : Text} :
    Exactly grammar S A st (.rule R.DocumentHeader) (headText h z) [headEl h] y := by
  have htrim : Walk.trimTitle [.str (h.title ++ h.trail)] = [.str h.title] := C63.trim_title hh.title
  have h0 : Never grammar S comments (headText h z) := never_comments (fun c hc => by cases hc; decide)
  unfold headText at h0 ⊢
  by_cases hne : h.authors = []
  · have hr : h.revision = none := by
      cases hr : h.revision with
      | none => rfl
      | some v => exact absurd hne (hh.revision v hr).2
    rw [if_pos hne] at h0 ⊢
    refine exactly_rule (exactly_act (exactly_scope (exactly_seq (exactly_pred (fun s => hT s _ _)) (exactly_seq (exactly_star_stop h0) (exactly_seq (documentTitle_rule hS hA hz hh.title)
      (exactly_seq (exactly_star_stop (never_comments (apart_head hy))) (exactly_seq (exactly_opt_never (never_authors hC hy)) (exactly_star_stop (never_more (apart_head hy))))))))) (fun s => ?_))
    refine hA 177 s _ _ _ ?_
    show some (Any.header [] (Walk.trimTitle [.str (h.title ++ h.trail)]) ([] ++ [])) = _
    rw [htrim, headEl, decls, if_pos hne, hr]
    rfl
  · rw [if_neg hne] at h0 ⊢
    obtain ⟨v, h1, h2, h3⟩ := authorsAndRevision_rule (st := titleLine h ++ ('\n' :: (authorsText h.authors ++ (match h.revision with | none => z | some v => '\n' :: (v.text ++ z)))))
      hS hC hA hz hy hh hne
    have hcom : ∀ x, ∀ c ∈ (authorsText h.authors ++ x).head?, c ∉ ['/', ':'] := by
      intro x c hc
      cases ha : h.authors with
      | nil => exact absurd ha hne
      | cons a as =>
        have hf := (hh.authors a (by rw [ha]; exact List.mem_cons_self)).named
        have : c ∈ a.first.head? := by
          rw [ha] at hc
          cases as with
          | nil => rw [authorsText, author_text, head_append hf] at hc; exact hc
          | cons b as =>
            rw [authorsText, List.append_assoc, author_text, head_append hf] at hc
            · exact hc
            · exact fun h => nomatch h
        exact C59.alnum_not_mem hS (hh.start a (by rw [ha]; rfl) c this) _ (by decide)
    refine exactly_rule (exactly_act (exactly_scope (exactly_seq (exactly_pred (fun s => hT s _ _)) (exactly_seq (exactly_star_stop h0) (exactly_seq (documentTitle_rule hS hA .line hh.title)
      (exactly_seq (exactly_star_stop (never_comments (hcom _))) (exactly_seq (exactly_opt h1) (exactly_star_stop (never_more (apart_head hy))))))))) (fun s => ?_))
    refine hA 177 s _ _ _ ?_
    show newHeader [.str (h.title ++ h.trail)] (.slice [.authors (h.authors.map value), v]) [] = _
    unfold newHeader
    rw [if_neg (fun h => nomatch h), htrim, headEl, decls, if_neg hne]
    cases ha : h.authors with
    | nil => exact absurd ha hne
    | cons a as =>
      cases hr : h.revision with
      | none => rw [h2 hr]; rfl
      | some w => rw [h3 w hr]; rfl

/-- What comes before headers among the fragments. -/
def before : List Nat := [R.BlockAttributes, R.ImageBlock, R.ShortcutParagraph, R.AttributeDeclaration, R.AttributeReset, R.BlankLine, R.UserMacroBlock]

theorem before_fail : ∀ i ∈ before, ∀ p ∈ [['=', ' '], ['=', '\t']], runO grammar (fun _ _ => none) 80 (.rule i) p p = some [.fail] := by decide +kernel

/-- The header is a fragment. -/
theorem header_fragment (hS : Code S) (hC : AuthorCode S) (hT : ∀ s st t, (S.pred 176 s st t).1 = true) (hA : Obeys A) (hz : Cut z y) (hy : Apart y) {h : Head} (hh : h.Ok (alnum S))
    {st : Text} : Exactly grammar S A st (.rule R.DocumentFragment) (headText h z) [headEl h] y := by
  have hx := fun st => header_rule (st := st) hS hC hT hA hz hy hh
  have hlt : y.length < (headText h z).length := by
    have h1 : y.length ≤ z.length := by cases hz <;> simp
    unfold headText titleLine
    split
    · simp; omega
    · split
      · simp; omega
      · simp; omega
  obtain ⟨p, x, hp, ex⟩ : ∃ p x, p ∈ [['=', ' '], ['=', '\t']] ∧ headText h z = p ++ x := by
    unfold headText titleLine
    cases hg : h.gap with
    | nil => exact absurd hg hh.title.apart
    | cons d g =>
      have := hh.title.gap d (by rw [hg]; exact List.mem_cons_self)
      simp only [isBlank, Bool.or_eq_true, beq_iff_eq] at this
      refine ⟨['=', d], g ++ (h.title ++ h.trail) ++ (if h.authors = [] then z else '\n' :: (authorsText h.authors ++ (match h.revision with | none => z | some v => '\n' :: (v.text ++ z)))),
        ?_, by simp⟩
      rcases this with rfl | rfl <;> simp
  rw [ex] at hx hlt ⊢
  have hb : ∀ i ∈ before, Never grammar S (.rule i) (p ++ x) := fun i hi => never_of_prefix (C62.follows hS) x (before_fail i hi p hp)
  have hc : ∃ c t, p ++ x = c :: t := by
    simp only [List.mem_cons, List.not_mem_nil, or_false] at hp
    rcases hp with rfl | rfl <;> exact ⟨_, _, rfl⟩
  obtain ⟨c, t, e⟩ := hc
  rw [e] at hx hlt hb ⊢
  refine C59.fragment hA hS (hb _ (by decide)) hlt (fun st => ?_)
  exact exactly_alt_right (hb _ (by decide)) (exactly_alt_right (hb _ (by decide)) (exactly_alt_right (hb _ (by decide)) (exactly_alt_right (hb _ (by decide))
    (exactly_alt_right (hb _ (by decide)) (exactly_alt_right (hb _ (by decide)) (exactly_alt_left (hx st)))))))

end C66
end Verif
