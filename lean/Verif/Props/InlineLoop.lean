import Verif.Props.InlineMarks

/-!
# C65 — Inline markup: all the elements of a text
-/
namespace Verif
namespace C65
open Peg Grammar Actions PlainText Inlined
open Walk (Any)
open Subs (Sub)
open Prose (char)
open C58 (span_append)

variable {σ : Type} {S : Sem σ} {A : Peg.Code σ} {E : List Sub} {f : σ → Option Char} {t w next : Text} {c : Char} {x : Option Char} {u : View}

/-! ### The byte that is tracked -/

/-- The last byte of a character, as the model of the parser has it. -/
theorem last_byte (c : Char) : Actions.lastByte c = Inlined.lastByte c := by
  have h1 : ∀ n, n < 256 → (UInt8.ofNat n).toNat = n := fun n hn => by simp [UInt8.toNat_ofNat']; omega
  have hc : c.toNat = c.val.toNat := rfl
  unfold Actions.lastByte Inlined.lastByte String.utf8EncodeChar
  rw [hc]
  dsimp only
  by_cases h : c.val.toNat ≤ 127
  · rw [if_pos (by omega), if_pos h]
    simp only [List.getLast?_singleton, Option.getD_some]
    rw [h1 _ (by omega), ← hc]
    exact (Char.ofNat_toNat c).symm
  · rw [if_neg (by omega), if_neg h]
    have e : (UInt8.ofNat (c.val.toNat % 64 + 128)).toNat = 128 + c.val.toNat % 64 := by rw [h1 _ (by omega)]; omega
    have e2 : ∀ l : List UInt8, ((l ++ [UInt8.ofNat (c.val.toNat % 64 + 128)]).getLast?.getD 0).toNat = 128 + c.val.toNat % 64 := fun l => by
      rw [List.getLast?_concat]; exact e
    split
    · exact congrArg Char.ofNat (e2 [_]).symm
    · split
      · exact congrArg Char.ofNat (e2 [_, _]).symm
      · exact congrArg Char.ofNat (e2 [_, _, _]).symm

theorem after_last {w : Text} (hw : w ≠ []) : w.getLast?.map Actions.lastByte = after x w := by
  unfold after
  cases h : w.getLast? with
  | none => exact absurd (List.getLast?_eq_none_iff.mp h) hw
  | some c => exact congrArg some (last_byte c)

theorem after_append (a b : Text) : after (after x a) b = after x (a ++ b) := by
  unfold after
  rw [List.getLast?_append]
  cases b.getLast? <;> rfl

/-! ### The loop -/

/-- One element, and then the others. -/
theorem loops_cons (h : Inl S A E f) {pl : Place} {w1 w2 g1 g2 : Text} (hw : w1 ≠ []) (hu : Unended S A f pl x (w1 ++ (w2 ++ next)))
    (he : Holds grammar S A f x (w1 ++ (w2 ++ next)) pl.alts (w1 ++ (w2 ++ next)) (fun o _ => ∃ v r, o = some ([v], r) ∧ r = w2 ++ next ∧ Raw u [v] g1))
    (hl : Loops S A f u pl (after x w1) w2 next g2) : Loops S A f u pl x (w1 ++ w2) next (g1 ++ g2) := by
  intro st
  obtain ⟨c, w1', rfl⟩ : ∃ c w', w1 = c :: w' := by cases w1 with | nil => exact absurd rfl hw | cons c w => exact ⟨c, w, rfl⟩
  rw [List.append_assoc]
  refine holds_star (element_holds h hu he) ?_ ?_
  · rintro y ⟨v, r, hv, _⟩; cases hv
  · rintro v r y ⟨v', r', hv, ⟨rfl, hraw⟩, hy⟩
    cases hv
    have e : span ((c :: w1') ++ (w2 ++ next)) (w2 ++ next) = c :: w1' := span_append _ _
    replace hy : y = (span ((c :: w1') ++ (w2 ++ next)) (w2 ++ next)).getLast?.map Actions.lastByte := hy
    rw [e, after_last (x := x) hw] at hy
    subst hy
    refine (hl _).mono ?_
    rintro o y ⟨rfl, vs, rfl, hvs⟩
    refine ⟨after_append _ _, v' :: vs, rfl, ?_⟩
    exact raw_append hraw hvs
where
  raw_append {v : Any} {vs : List Any} {g1 g2 : Text} (h1 : Raw u [v] g1) (h2 : Raw u vs g2) : Raw u (v :: vs) (g1 ++ g2) := by
    cases h1 with
    | null h => cases h; exact .null h2
    | text hf h => cases h; rw [List.append_nil]; exact .text hf h2
    | single hd h => cases h; rw [List.append_nil]; exact .single hd h2
    | slice hx h => cases h; rw [List.append_nil]; exact .slice hx h2

/-! ### Ends -/

/-- At other characters than the mark. -/
theorem unended (h : Inl S A E f) {pl : Place} (hc : ∀ m ∈ pl.mark, c ≠ m.char) : Unended S A f pl x (c :: t) := by
  have key : ∀ {m : Mark}, c ≠ m.char → ∀ p ∈ [[m.char]], ¬ p <+: c :: t := by
    intro m hm p hp hq
    rw [List.mem_singleton.mp hp] at hq
    obtain ⟨z, hz⟩ := hq
    exact hm (List.cons.inj hz).1.symm
  intro e he st
  cases pl with
  | normal => cases he
  | once m =>
    cases he
    refine Never.holds (begins_never (F := [[m.char]]) (key (hc m rfl)) 40 _ (by cases m <;> decide +kernel)) (still h (by cases m <;> decide))
  | twice m =>
    cases he
    refine Never.holds (begins_never (F := [[m.char]]) (key (hc m rfl)) 40 _ (by cases m <;> decide +kernel)) (still h (by cases m <;> decide))

theorem unended_quote (h : Inl S A E f) {pl : Place} {d : Char} (hd : d = '"' ∨ d = '\'') (hn : next.head? ≠ some '`') : Unended S A f pl x ('`' :: d :: next) := by
  by_cases hm : ∀ m ∈ pl.mark, '`' ≠ m.char
  · exact unended h hm
  · intro e he st
    have hS : Sure grammar S (.rule R.QuotationMark) ('`' :: d :: next) := by
      refine sure_rule ?_
      rcases hd with rfl | rfl
      · exact sure_alt_left (yields_act (yields_scope (yields_seq (yields_lit.to (o' := some next) rfl) (yields_notP (never_monoStart hn))))).sure
      · exact sure_alt_right (sure_alt_right (sure_alt_left
          (yields_act (yields_scope (yields_seq (yields_lit.to (o' := some next) rfl) (yields_notP (never_monoStart hn))))).sure))
    cases pl with
    | normal => cases he
    | once m =>
      cases he
      cases m with
      | mono => exact Never.holds (yields_rule (yields_scope (never_seq (never_notP hS)))) (still h (by decide))
      | bold => exact absurd (fun m hm => by cases hm; decide) hm
      | italic => exact absurd (fun m hm => by cases hm; decide) hm
      | highlight => exact absurd (fun m hm => by cases hm; decide) hm
    | twice m =>
      cases he
      cases m with
      | mono => exact Never.holds (yields_rule (yields_lit.to (by rcases hd with rfl | rfl <;> rfl))) (still h (by decide))
      | bold => exact absurd (fun m hm => by cases hm; decide) hm
      | italic => exact absurd (fun m hm => by cases hm; decide) hm
      | highlight => exact absurd (fun m hm => by cases hm; decide) hm

theorem ended_once (h : Inl S A E f) {m : Mark} (hg : ∀ c ∈ x, isGap c = false) (he : m.Ends S.letter S.number next) : Ended S A f (.once m) x (m.char :: next) := by
  refine ⟨(fun h => nomatch h), fun e hm st => ?_⟩
  cases hm
  refine (once_end h hg he).mono ?_
  rintro o y ⟨rfl, v, rfl⟩
  exact ⟨rfl, by simp⟩

theorem ended_twice (h : Inl S A E f) {m : Mark} : Ended S A f (.twice m) x (m.char :: m.char :: next) := by
  refine ⟨(fun h => nomatch h), fun e hm st => ?_⟩
  cases hm
  refine holds_rule ?_
  rw [twice_end]
  refine (lit_holds h (u := next) (by simp [matchLit])).mono ?_
  rintro o y ⟨rfl, rfl⟩
  exact ⟨rfl, by simp⟩

theorem ended_normal : Ended S A f .normal x [] := ⟨fun _ => rfl, fun _ he => nomatch he⟩

/-! ### Text -/

theorem raw_piece {v : Any} (h : C58.Piece true w v) : Raw u [v] (w.flatMap (char u.unicode)) := by
  cases h with
  | text h =>
    have := Raw.text (u := u) (t := w) (fun c hc => by simpa using h c hc) .nil
    rwa [List.append_nil] at this
  | str h =>
    have := Raw.single (u := u) (Draws.str (t := w) (fun c hc => by simpa using h c hc) .nil) .nil
    rwa [List.append_nil, List.append_nil] at this
  | @special c h =>
    have := Raw.single (u := u) (Draws.special (c := c) (by simpa using h) .nil) .nil
    simpa using this
theorem clear_suffix {a b : Text} (h : Clear next (a ++ b)) : Clear next b := by
  induction a with
  | nil => exact h
  | cons c a ih => exact ih h.2

/-- Text, and what follows. -/
theorem loops_text (h : Inl S A E f) {pl : Place} {w2 g : Text} : ∀ (n : Nat) {w : Text} {x : Option Char}, w.length = n → (∀ c ∈ w, c ∉ reserved) → Clear (w2 ++ next) w →
    ¬ ['\n', '\n'] <:+: w → Stops S (w2 ++ next) → Quiet (w ++ (w2 ++ next)) →
    Loops S A f u pl (after x w) w2 next g → Loops S A f u pl x (w ++ w2) next (w.flatMap (char u.unicode) ++ g) := by
  intro n
  induction n using Nat.strongRecOn with
  | ind n ih =>
    intro w x hn ho hcl hli hst hpl hl
    cases w with
    | nil => exact hl
    | cons c w =>
      have hc := ho c List.mem_cons_self
      have hcr : '\r' ∉ w := fun hr => ho _ (List.mem_cons_of_mem _ hr) (by decide)
      have hun : Unended S A f pl x (c :: (w ++ (w2 ++ next))) := by
        refine unended h (fun m _ e => hc ?_)
        rw [e]; cases m <;> decide
      have hg : Gives grammar S A pl.alts (c :: (w ++ (w2 ++ next))) (TookIn (c :: w) (w2 ++ next)) := by
        cases pl with
        | normal => exact gives_normal h hpl hc hcl.1 hst
        | once m => exact gives_quotedElement h hpl hc hcl.1 hst (fun hp => hli hp.isInfix) hcr
        | twice m => exact gives_quotedElement h hpl hc hcl.1 hst (fun hp => hli hp.isInfix) hcr
      intro st
      rw [List.append_assoc]
      refine holds_star (element_holds (V := fun v r => ∃ a b, r = b ++ (w2 ++ next) ∧ c :: w = a ++ b ∧ a ≠ [] ∧ C58.Piece true a v) h hun (hg.holds_any.mono ?_)) ?_ ?_
      · rintro o _ ⟨a, b, v, rfl, h2, h3, h4⟩
        exact ⟨v, _, rfl, a, b, rfl, h2, h3, h4⟩
      · rintro y ⟨v, r, hv, _⟩; cases hv
      · rintro v r y ⟨v', r', hv, ⟨a, b, rfl, h2, h3, h4⟩, hy⟩
        cases hv
        have e : c :: (w ++ (w2 ++ next)) = a ++ (b ++ (w2 ++ next)) := by
          rw [show c :: (w ++ (w2 ++ next)) = (c :: w) ++ (w2 ++ next) from rfl, h2, List.append_assoc]
        replace hy : y = (span (c :: (w ++ (w2 ++ next))) (b ++ (w2 ++ next))).getLast?.map Actions.lastByte := hy
        rw [e, span_append, after_last (x := x) h3] at hy
        subst hy
        have hsub : b <:+ c :: w := ⟨a, h2.symm⟩
        have hlen : b.length < n := by
          have := congrArg List.length h2
          rw [List.length_append] at this
          have := List.length_pos_iff.mpr h3
          omega
        have := ih _ hlen (w := b) (x := after x a) rfl (fun d hd => ho d (hsub.subset hd)) (clear_suffix (a := a) (h2 ▸ hcl)) (fun hi => hli (hi.trans hsub.isInfix)) hst
          (quiet_suffix hpl ⟨a, by rw [show (c :: w) ++ (w2 ++ next) = c :: (w ++ (w2 ++ next)) from rfl, e]⟩) (by rw [after_append, ← h2]; exact hl) st
        rw [List.append_assoc] at this
        refine this.mono ?_
        rintro o y ⟨rfl, vs, rfl, hvs⟩
        refine ⟨?_, v' :: vs, rfl, ?_⟩
        · rw [after_append, ← List.append_assoc, ← h2]
        · rw [h2, List.flatMap_append, List.append_assoc]
          exact loops_cons.raw_append (raw_piece h4) hvs

end C65
end Verif
