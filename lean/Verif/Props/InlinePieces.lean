import Verif.Props.InlineLoop
import Verif.Props.InlineCross

/-!
# C65 — Inline markup: the elements of a text with markup
-/
namespace Verif
namespace C65
open Peg Grammar Actions PlainText Inlined
open Walk (Any)
open Subs (Sub)
open Prose (char)
open C58 (span_append)

variable {σ : Type} {S : Sem σ} {A : Peg.Code σ} {E : List Sub} {f : σ → Option Char} {t w next : Text} {c : Char} {x : Option Char} {u : View}

theorem raw_single {v : Any} {g : Text} (h : Draws u [v] g) : Raw u [v] g := by
  have := Raw.single h .nil
  rwa [List.append_nil] at this

/-- Quoted text as an element. -/
theorem quoted_alts (h : Inl S A E f) {pl : Place} {g : Text} (hc : c ∈ marking) (hm : ∀ m ∈ replacing, ¬ m <+: c :: t) (ht : Quiet (c :: t))
    (hq : ∀ st, Holds grammar S A f x st (.alt (.rule R.SingleQuotedText) (.rule R.DoubleQuotedText)) (c :: t) (fun o _ => ∃ v, o = some ([v], next) ∧ Draws u [v] g)) :
    Holds grammar S A f x (c :: t) pl.alts (c :: t) (fun o _ => ∃ v r, o = some ([v], r) ∧ r = next ∧ Raw u [v] g) := by
  refine to_quoted (V := fun v r => r = next ∧ Raw u [v] g) h hc hm ht (fun st => ?_)
  refine (quoted_holds (V := fun v r => r = next ∧ Draws u [v] g) h hc (fun st => (hq st).mono ?_) st).mono ?_
  · rintro o _ ⟨v, rfl, hd⟩
    exact ⟨v, _, rfl, rfl, hd⟩
  · rintro o _ ⟨v, r, rfl, rfl, hd⟩
    exact ⟨v, _, rfl, ⟨rfl, raw_single hd⟩, rfl, raw_one (.null (raw_single hd))⟩

theorem ok_ne {Q : Any → Prop} (y : Option Char) : ¬ (fun (o : Option (List Any × Text)) (_ : Option Char) => ∃ v, o = some ([v], next) ∧ Q v) none y := by
  rintro ⟨v, hv, _⟩; cases hv

/-- A text with one mark on both sides is found first. -/
theorem single_mark (h : Inl S A E f) {m : Mark} {Q : Any → Prop}
    (hq : ∀ st, Holds grammar S A f x st (.rule (onceText m)) (m.char :: t) (fun o _ => ∃ v, o = some ([v], next) ∧ Q v)) (st : Text) :
    Holds grammar S A f x st (.alt (.rule R.SingleQuotedText) (.rule R.DoubleQuotedText)) (m.char :: t) (fun o _ => ∃ v, o = some ([v], next) ∧ Q v) := by
  refine holds_first h (holds_rule ?_) ok_ne
  have hq := hq (m.char :: t)
  cases m with
  | bold => exact holds_first h hq ok_ne
  | italic => exact holds_skip h (other_once (m := .bold) h (by decide)) (holds_first h hq ok_ne)
  | mono => exact holds_skip h (other_once (m := .bold) h (by decide)) (holds_skip h (other_once (m := .italic) h (by decide)) (holds_first h hq ok_ne))
  | highlight =>
    exact holds_skip h (other_once (m := .bold) h (by decide)) (holds_skip h (other_once (m := .italic) h (by decide)) (holds_skip h (other_once (m := .mono) h (by decide))
      (holds_first h hq ok_ne)))

/-- With two marks. -/
theorem double_mark (h : Inl S A E f) {m : Mark} {Q : Any → Prop}
    (hq : ∀ st, Holds grammar S A f x st (.rule (twiceText m)) (m.char :: m.char :: t) (fun o _ => ∃ v, o = some ([v], next) ∧ Q v)) (st : Text) :
    Holds grammar S A f x st (.alt (.rule R.SingleQuotedText) (.rule R.DoubleQuotedText)) (m.char :: m.char :: t) (fun o _ => ∃ v, o = some ([v], next) ∧ Q v) := by
  have hone : ∀ (n : Mark) st, Holds grammar S A f x st (.rule (onceText n)) (m.char :: m.char :: t) (fun o y => y = x ∧ o = none) := by
    intro n st
    by_cases e : m.char = n.char
    · have : m = n := by cases m <;> cases n <;> first | rfl | exact absurd e (by decide)
      subst this
      exact not_once h
    · exact other_once h e
  have hnot : ∀ st, Holds grammar S A f x st (.rule R.SingleQuotedText) (m.char :: m.char :: t) (fun o y => y = x ∧ o = none) := fun st =>
    holds_rule (holds_skip h (hone .bold _) (holds_skip h (hone .italic _) (holds_skip h (hone .mono _) (holds_skip h (hone .highlight _)
      (holds_skip h (not_sub h (by cases m <;> decide)) (not_sup h (by cases m <;> decide)))))))
  refine holds_skip h (hnot _) (holds_rule ?_)
  have hq := hq (m.char :: m.char :: t)
  cases m with
  | bold => exact holds_first h hq ok_ne
  | italic => exact holds_skip h (other_twice (m := .bold) h (by decide)) (holds_first h hq ok_ne)
  | mono => exact holds_skip h (other_twice (m := .bold) h (by decide)) (holds_skip h (other_twice (m := .italic) h (by decide)) (holds_first h hq ok_ne))
  | highlight =>
    exact holds_skip h (other_twice (m := .bold) h (by decide)) (holds_skip h (other_twice (m := .italic) h (by decide)) (holds_skip h (other_twice (m := .mono) h (by decide)) hq))

/-- Subscripts and superscripts. -/
theorem script_mark (h : Inl S A E f) {up : Bool} {Q : Any → Prop}
    (hq : ∀ st, Holds grammar S A f x st (.rule (if up then R.SuperscriptText else R.SubscriptText)) ((if up then '^' else '~') :: t) (fun o _ => ∃ v, o = some ([v], next) ∧ Q v))
    (st : Text) : Holds grammar S A f x st (.alt (.rule R.SingleQuotedText) (.rule R.DoubleQuotedText)) ((if up then '^' else '~') :: t)
      (fun o _ => ∃ v, o = some ([v], next) ∧ Q v) := by
  have hone : ∀ (n : Mark) st, Holds grammar S A f x st (.rule (onceText n)) ((if up then '^' else '~') :: t) (fun o y => y = x ∧ o = none) := fun n st =>
    other_once h (by cases n <;> cases up <;> decide)
  refine holds_first h (holds_rule ?_) ok_ne
  refine holds_skip h (hone .bold _) (holds_skip h (hone .italic _) (holds_skip h (hone .mono _) (holds_skip h (hone .highlight _) ?_)))
  have hq := hq ((if up then '^' else '~') :: t)
  cases up with
  | true => exact holds_skip h (not_sub h (by decide)) hq
  | false => exact holds_first h hq ok_ne

/-- Marks are not signs. -/
theorem mark_no_sign (hc : c ∈ marking) (ht : c = '`' → t.head? ≠ some '"' ∧ t.head? ≠ some '\'') : ∀ m ∈ replacing, ¬ m <+: c :: t := by
  have h1 : ∀ m ∈ replacing, (∃ a l, m = a :: l ∧ a ∉ marking) ∨ m = ['`', '"'] ∨ m = ['`', '\''] := by
    have : ∀ m ∈ replacing, (m.head?.any (fun a => !marking.contains a)) = true ∨ m = ['`', '"'] ∨ m = ['`', '\''] := by decide +kernel
    intro m hm
    refine (this m hm).imp_left (fun h => ?_)
    cases m with
    | nil => cases h
    | cons a l => exact ⟨a, l, rfl, by simpa using h⟩
  intro m hm ⟨z, hz⟩
  rcases h1 m hm with ⟨a, l, rfl, ha⟩ | rfl | rfl
  · exact ha ((List.cons.inj hz).1 ▸ hc)
  · have := List.cons.inj hz
    exact (ht this.1.symm).1 (by rw [← this.2]; rfl)
  · have := List.cons.inj hz
    exact (ht this.1.symm).2 (by rw [← this.2]; rfl)

theorem head_append (hw : w ≠ []) : (w ++ next).head? = w.head? := by
  cases w with
  | nil => exact absurd rfl hw
  | cons c w => rfl

theorem begins_sign {m : Mark} (hb : m.Begins w) : m.char = '`' → (w ++ next).head? ≠ some '"' ∧ (w ++ next).head? ≠ some '\'' := by
  intro hm
  have : m = .mono := by cases m <;> first | rfl | exact absurd hm (by decide)
  subst this
  obtain ⟨c, hc, _, _, h3⟩ := hb
  rw [head_append (by rintro rfl; cases hc), hc]
  have := h3 rfl
  exact ⟨fun e => this.1 (Option.some.inj e), fun e => this.2 (Option.some.inj e)⟩

theorem sign_unended (h : Inl S A E f) {pl : Place} {s : Sign} (hok : s.Ok S.letter S.number x next) : Unended S A f pl x (s.written ++ next) := by
  have free : ∀ {c : Char} {t : Text}, c ∉ marking → Unended S A f pl x (c :: t) := fun hc => unended h (fun m _ e => hc (e ▸ char_marking m))
  cases s with
  | closeDouble => exact unended_quote h (.inl rfl) hok
  | closeSingle => exact unended_quote h (.inr rfl) hok
  | _ => exact free (by decide)

theorem sign_ne (s : Sign) : s.written ≠ [] := by cases s <;> decide

theorem written_ne : ∀ {ps : List Inlined.Piece} {prev : Option Char} {next : Text} {letter number : Char → Bool}, ps ≠ [] → Inlined.Ok letter number prev next ps → Inlined.written ps ≠ []
  | [], _, _, _, _, h, _ => absurd rfl h
  | p :: ps, prev, next, letter, number, _, h => by
    have hp := h.1
    have : p.written ≠ [] := by
      cases p with
      | text t => exact hp.some
      | sign s => exact sign_ne s
      | marked m b ps => cases b <;> exact List.cons_ne_nil _ _
      | script b t => cases b <;> exact List.cons_ne_nil _ _
      | ref id l =>
        obtain ⟨w, hw⟩ := ref_head (id := id) (l := l)
        rw [hw]; exact List.cons_ne_nil _ _
    intro e
    exact this (List.append_eq_nil_iff.mp e).1

mutual
/-- A piece as an element. -/
theorem piece_holds (h : Inl S A E f) : ∀ (p : Inlined.Piece) {pl : Place} {x : Option Char} {next : Text}, (∀ t, p ≠ .text t) → p.Ok S.letter S.number x next →
    Quiet (p.written ++ next) →
    Holds grammar S A f x (p.written ++ next) pl.alts (p.written ++ next) (fun o _ => ∃ v r, o = some ([v], r) ∧ r = next ∧ Raw u [v] (p.html u))
  | .text t, _, _, _, hn, _, _ => absurd rfl (hn t)
  | .sign s, pl, x, next, _, hok, hpl => by
    refine (sign_holds h s hok).mono ?_
    rintro o _ ⟨v, r, rfl, rfl, rfl⟩
    refine ⟨_, _, rfl, rfl, raw_single ?_⟩
    have := Draws.sign (u := u) (s := s) .nil
    rwa [List.append_nil] at this
  | .marked m false ps, pl, x, next, _, hok, hpl => by
    obtain ⟨hne, hhas, hopen, hbeg, hin, hgap, hend⟩ := hok
    have e : (Inlined.Piece.marked m false ps).written ++ next = m.char :: (Inlined.written ps ++ m.char :: next) := by simp [Inlined.Piece.written]
    rw [e] at hpl ⊢
    have hl : Loops S A f u (.once m) x (Inlined.written ps) (m.char :: next) (Inlined.html u ps) :=
      pieces_hold h ps hin (quiet_suffix hpl ⟨[m.char], rfl⟩) (fun n hn p hp => by cases hn; exact hhas p hp) (ended_once h hgap hend)
    exact quoted_alts h (char_marking m) (mark_no_sign (char_marking m) (begins_sign hbeg)) hpl
      (single_mark h (fun st => once_holds h hl hopen hbeg hgap hend))
  | .marked m true ps, pl, x, next, _, hok, hpl => by
    obtain ⟨hne, hhas, hin⟩ := hok
    have e : (Inlined.Piece.marked m true ps).written ++ next = m.char :: m.char :: (Inlined.written ps ++ m.char :: m.char :: next) := by simp [Inlined.Piece.written]
    rw [e] at hpl ⊢
    have hl : Loops S A f u (.twice m) x (Inlined.written ps) (m.char :: m.char :: next) (Inlined.html u ps) :=
      pieces_hold h ps hin (quiet_suffix hpl ⟨[m.char, m.char], rfl⟩) (fun n hn p hp => by cases hn; exact hhas p hp) (ended_twice h)
    refine quoted_alts h (char_marking m) (mark_no_sign (char_marking m) ?_) hpl (double_mark h (fun st => twice_holds h hl (written_ne hne hin)))
    intro hm
    show some m.char ≠ _ ∧ some m.char ≠ _
    rw [hm]
    decide
  | .script up t, pl, x, next, _, hok, hpl => by
    obtain ⟨hne, hcs, hhd⟩ := hok
    have e : (Inlined.Piece.script up t).written ++ next = (if up then '^' else '~') :: (t ++ (if up then '^' else '~') :: next) := by
      cases up <;> simp [Inlined.Piece.written]
    have e2 : (Inlined.Piece.script up t).html u = tagged (if up then "sup".toList else "sub".toList) (t.flatMap (char u.unicode)) := by cases up <;> rfl
    rw [e] at hpl ⊢
    rw [e2]
    have hm : (if up then '^' else '~') ∈ marking := by cases up <;> decide
    refine quoted_alts h hm (mark_no_sign hm ?_) hpl (script_mark h (fun st => script_holds h hne hcs hhd))
    intro hm
    cases up <;> exact absurd hm (by decide)

  | .ref id l, pl, x, next, _, hok, hpl => by
    obtain ⟨hne, hcs, hl⟩ := hok
    have he := exactly_ref (A := A) (st := (Inlined.Piece.ref id l).written ++ next) (pl := pl) h hne hcs hl hpl
    intro s r _ hr
    refine ⟨_, _, he s r hr, rfl, raw_single ?_⟩
    have := Draws.ref (u := u) (id := id) (l := l) .nil
    rwa [List.append_nil] at this

/-- The elements of a text with markup. -/
theorem pieces_hold (h : Inl S A E f) : ∀ (ps : List Inlined.Piece) {pl : Place} {x : Option Char} {next : Text}, Inlined.Ok S.letter S.number x next ps →
    Quiet (Inlined.written ps ++ next) → (∀ m ∈ pl.mark, ∀ p ∈ ps, p.has m = false) → Ended S A f pl (after x (Inlined.written ps)) next →
    Loops S A f u pl x (Inlined.written ps) next (Inlined.html u ps)
  | [], pl, x, next, _, _, _, hend => loops_nil h hend
  | p :: ps, pl, x, next, hok, hpl, hhas, hend => by
    obtain ⟨hp, hps⟩ := hok
    have hpl' : Quiet (p.written ++ (Inlined.written ps ++ next)) := by
      rw [← List.append_assoc]; exact hpl
    have hend' : Ended S A f pl (after (after x p.written) (Inlined.written ps)) next := by rw [after_append]; exact hend
    have hl : Loops S A f u pl (after x p.written) (Inlined.written ps) next (Inlined.html u ps) :=
      pieces_hold h ps hps (quiet_suffix hpl' ⟨p.written, rfl⟩) (fun m hm q hq => hhas m hm q (List.mem_cons_of_mem _ hq)) hend'
    have hne : p.written ≠ [] := by
      have := written_ne (ps := [p]) (by simp) (show Inlined.Ok S.letter S.number x (Inlined.written ps ++ next) [p] from ⟨by simpa [Inlined.written] using hp, trivial⟩)
      simpa [Inlined.written] using this
    have hmark : ∀ {m : Mark} {b : Bool} {qs : List Inlined.Piece}, p = .marked m b qs → ∀ n ∈ pl.mark, m.char ≠ n.char := by
      rintro m b qs rfl n hn e
      have := hhas n hn _ List.mem_cons_self
      have e' : m = n := by cases m <;> cases n <;> first | rfl | exact absurd e (by decide)
      subst e'
      simp [Inlined.Piece.has] at this
    cases p with
    | text t =>
      exact loops_text h _ rfl hp.ordinary hp.clear hp.lines hp.stops hpl' hl
    | sign s => exact loops_cons h hne (sign_unended h hp) (piece_holds h (.sign s) (fun _ e => nomatch e) hp hpl') hl
    | marked m b qs =>
      refine loops_cons h hne ?_ (piece_holds h (.marked m b qs) (fun _ e => nomatch e) hp hpl') hl
      cases b <;> exact unended h (hmark rfl)
    | script up t =>
      refine loops_cons h hne ?_ (piece_holds h (.script up t) (fun _ e => nomatch e) hp hpl') hl
      cases up <;> exact unended h (fun m _ => by cases m <;> decide)
    | ref id l =>
      refine loops_cons h hne ?_ (piece_holds h (.ref id l) (fun _ e => nomatch e) hp hpl') hl
      obtain ⟨w, hw⟩ := ref_head (id := id) (l := l)
      rw [hw]
      exact unended h (fun m _ => by cases m <;> decide)
end

end C65
end Verif
