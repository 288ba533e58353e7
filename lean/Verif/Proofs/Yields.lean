import Verif.Proofs.Eval

/-!
What an expression yields on a text, from every state: `Yields e t o` says that every result of `e` on `t` is a
failure (`o = none`) or a success with the remaining text `u` (`o = some u`). `Sure e t`: never a failure.
-/
namespace Verif
namespace Peg
variable {σ : Type} (G : Nat → Exp) (S : Sem σ)

/-- Every result on `t` is `o`. -/
def Yields (e : Exp) (t : Text) (o : Option Text) : Prop := ∀ st s r, Eval G S e st s t r → r.rest = o

/-- Never fails on `t`. -/
def Sure (e : Exp) (t : Text) : Prop := ∀ st s r, Eval G S e st s t r → r.rest.isSome = true

/-- Always fails on `t`. -/
abbrev Never (e : Exp) (t : Text) : Prop := Yields G S e t none

variable {G S} {a b e : Exp} {t u : Text} {o : Option Text}

theorem Yields.to {o' : Option Text} (h : Yields G S e t o) (he : o = o') : Yields G S e t o' := he ▸ h

theorem Yields.sure (h : Yields G S e t (some u)) : Sure G S e t := fun st s r hr => by rw [h st s r hr]; rfl

theorem yields_eps : Yields G S .eps t (some t) := fun _ _ r h => by rw [eval_eps.mp h]; rfl

theorem yields_any_nil : Yields G S .any [] none := fun _ _ r h => by rw [eval_any_nil.mp h]; rfl

theorem yields_any_cons {c : Char} : Yields G S .any (c :: t) (some t) := fun _ _ r h => by rw [eval_any_cons.mp h]; rfl

theorem yields_lit {l : List Char} : Yields G S (.lit l) t (matchLit l t) := fun _ s r h => by
  rw [eval_lit.mp h]; cases matchLit l t <;> rfl

theorem yields_litI {l : List Char} : Yields G S (.litI l) t (matchLitI l t) := fun _ s r h => by
  rw [eval_litI.mp h]; cases matchLitI l t <;> rfl

theorem yields_cls_nil {c : Cls} : Yields G S (.cls c) [] none := fun _ _ r h => by rw [eval_cls_nil.mp h]; rfl

theorem yields_cls {c : Cls} {x : Char} (h : c.has S.letter S.number x = true) :
    Yields G S (.cls c) (x :: t) (some t) := fun _ _ r hr => by rw [eval_cls_cons.mp hr, if_pos h]; rfl

theorem yields_cls_no {c : Cls} {x : Char} (h : c.has S.letter S.number x = false) :
    Yields G S (.cls c) (x :: t) none := fun _ _ r hr => by rw [eval_cls_cons.mp hr, if_neg (by simp [h])]; rfl

theorem yields_seq (ha : Yields G S a t (some u)) (hb : Yields G S b u o) : Yields G S (.seq a b) t o := by
  intro st s r h
  rcases eval_seq.mp h with ⟨s1, h1, rfl⟩ | ⟨s1, v, h1, h2⟩
  · cases ha _ _ _ h1
  · cases ha _ _ _ h1
    exact hb _ _ _ h2

theorem never_seq (ha : Never G S a t) : Never G S (.seq a b) t := by
  intro st s r h
  rcases eval_seq.mp h with ⟨s1, h1, rfl⟩ | ⟨s1, v, h1, h2⟩
  · rfl
  · cases ha _ _ _ h1

theorem yields_alt_left (ha : Yields G S a t (some u)) : Yields G S (.alt a b) t (some u) := by
  intro st s r h
  rcases eval_alt.mp h with ⟨s1, h1, h2⟩ | ⟨s1, v, h1, rfl⟩
  · cases ha _ _ _ h1
  · exact ha _ _ _ h1

theorem yields_alt_right (ha : Never G S a t) (hb : Yields G S b t o) : Yields G S (.alt a b) t o := by
  intro st s r h
  rcases eval_alt.mp h with ⟨s1, h1, h2⟩ | ⟨s1, v, h1, rfl⟩
  · exact hb _ _ _ h2
  · cases ha _ _ _ h1

theorem sure_alt_left (ha : Sure G S a t) : Sure G S (.alt a b) t := by
  intro st s r h
  rcases eval_alt.mp h with ⟨s1, h1, h2⟩ | ⟨s1, v, h1, rfl⟩
  · cases ha _ _ _ h1
  · rfl

theorem sure_alt_right (hb : Sure G S b t) : Sure G S (.alt a b) t := by
  intro st s r h
  rcases eval_alt.mp h with ⟨s1, h1, h2⟩ | ⟨s1, v, h1, rfl⟩
  · exact hb _ _ _ h2
  · rfl

theorem sure_seq (ha : Yields G S a t (some u)) (hb : Sure G S b u) : Sure G S (.seq a b) t := by
  intro st s r h
  rcases eval_seq.mp h with ⟨s1, h1, rfl⟩ | ⟨s1, v, h1, h2⟩
  · cases ha _ _ _ h1
  · cases ha _ _ _ h1
    exact hb _ _ _ h2

theorem yields_star_stop (h : Never G S e t) : Yields G S (.star e) t (some t) := by
  intro st s r hr
  rcases eval_star.mp hr with ⟨s1, h1, rfl⟩ | ⟨s1, v, h1, h2⟩
  · rfl
  · cases h _ _ _ h1

theorem yields_star_step (h : Yields G S e t (some u)) (h' : Yields G S (.star e) u o) : Yields G S (.star e) t o := by
  intro st s r hr
  rcases eval_star.mp hr with ⟨s1, h1, rfl⟩ | ⟨s1, v, h1, h2⟩
  · cases h _ _ _ h1
  · cases h _ _ _ h1
    exact h' _ _ _ h2

theorem yields_plus_step (h : Yields G S e t (some u)) (h' : Yields G S (.star e) u o) : Yields G S (.plus e) t o := by
  intro st s r hr
  rcases eval_plus.mp hr with ⟨s1, h1, rfl⟩ | ⟨s1, v, h1, h2⟩
  · cases h _ _ _ h1
  · cases h _ _ _ h1
    exact h' _ _ _ h2

theorem never_plus (h : Never G S e t) : Never G S (.plus e) t := by
  intro st s r hr
  rcases eval_plus.mp hr with ⟨s1, h1, rfl⟩ | ⟨s1, v, h1, h2⟩
  · rfl
  · cases h _ _ _ h1

theorem yields_opt_none (h : Never G S e t) : Yields G S (.opt e) t (some t) := by
  intro st s r hr
  rcases eval_opt.mp hr with ⟨s1, h1, rfl⟩ | ⟨s1, v, h1, rfl⟩
  · rfl
  · cases h _ _ _ h1

theorem yields_opt_some (h : Yields G S e t (some u)) : Yields G S (.opt e) t (some u) := by
  intro st s r hr
  rcases eval_opt.mp hr with ⟨s1, h1, rfl⟩ | ⟨s1, v, h1, rfl⟩
  · cases h _ _ _ h1
  · exact h _ _ _ h1

theorem yields_andP (h : Sure G S e t) : Yields G S (.andP e) t (some t) := by
  intro st s r hr
  rcases eval_andP.mp hr with ⟨s1, h1, rfl⟩ | ⟨s1, v, h1, rfl⟩
  · cases h _ _ _ h1
  · rfl

theorem never_andP (h : Never G S e t) : Never G S (.andP e) t := by
  intro st s r hr
  rcases eval_andP.mp hr with ⟨s1, h1, rfl⟩ | ⟨s1, v, h1, rfl⟩
  · rfl
  · cases h _ _ _ h1

theorem yields_notP (h : Never G S e t) : Yields G S (.notP e) t (some t) := by
  intro st s r hr
  rcases eval_notP.mp hr with ⟨s1, h1, rfl⟩ | ⟨s1, v, h1, rfl⟩
  · rfl
  · cases h _ _ _ h1

theorem never_notP (h : Sure G S e t) : Never G S (.notP e) t := by
  intro st s r hr
  rcases eval_notP.mp hr with ⟨s1, h1, rfl⟩ | ⟨s1, v, h1, rfl⟩
  · cases h _ _ _ h1
  · rfl

theorem yields_rule {i : Nat} (h : Yields G S (G i) t o) : Yields G S (.rule i) t o :=
  fun _ _ _ hr => h _ _ _ (eval_rule.mp hr)

theorem sure_rule {i : Nat} (h : Sure G S (G i) t) : Sure G S (.rule i) t :=
  fun _ _ _ hr => h _ _ _ (eval_rule.mp hr)

theorem yields_act {id : Nat} (h : Yields G S e t o) : Yields G S (.act id e) t o := by
  intro st s r hr
  rcases eval_act.mp hr with ⟨s1, h1, rfl⟩ | ⟨s1, v, h1, rfl⟩
  · exact h _ _ _ h1
  · exact (h _ _ _ h1 : (Res.ok s1 v).rest = o)

theorem sure_act {id : Nat} (h : Sure G S e t) : Sure G S (.act id e) t := by
  intro st s r hr
  rcases eval_act.mp hr with ⟨s1, h1, rfl⟩ | ⟨s1, v, h1, rfl⟩
  · cases h _ _ _ h1
  · rfl

theorem yields_scope (h : Yields G S e t o) : Yields G S (.scope e) t o := by
  intro st s r hr
  rcases eval_scope.mp hr with ⟨s1, h1, rfl⟩ | ⟨s1, v, h1, rfl⟩
  · exact (h _ _ _ h1 : (Res.fail s1).rest = o)
  · exact h _ _ _ h1

theorem sure_scope (h : Sure G S e t) : Sure G S (.scope e) t := by
  intro st s r hr
  rcases eval_scope.mp hr with ⟨s1, h1, rfl⟩ | ⟨s1, v, h1, rfl⟩
  · cases h _ _ _ h1
  · rfl

theorem yields_pred {id : Nat} (h : ∀ s st, (S.pred id s st t).1 = true) : Yields G S (.pred id) t (some t) := by
  intro st s r hr
  rw [eval_pred.mp hr]
  have := h s st
  rcases hp : S.pred id s st t with ⟨x, s'⟩
  rw [hp] at this
  cases this
  rfl

theorem never_pred {id : Nat} (h : ∀ s st, (S.pred id s st t).1 = false) : Never G S (.pred id) t := by
  intro st s r hr
  rw [eval_pred.mp hr]
  have := h s st
  rcases hp : S.pred id s st t with ⟨x, s'⟩
  rw [hp] at this
  cases this
  rfl

theorem yields_state {id : Nat} : Yields G S (.state id) t (some t) := fun _ _ r h => by rw [eval_state.mp h]; rfl

/-- The longest prefix in a class. -/
theorem yields_star_cls {c : Cls} : ∀ t : Text,
    Yields G S (.star (.cls c)) t (some (t.dropWhile (c.has S.letter S.number)))
  | [] => yields_star_stop yields_cls_nil
  | x :: t => by
    cases h : c.has S.letter S.number x with
    | true =>
      rw [List.dropWhile_cons_of_pos h]
      exact yields_star_step (yields_cls h) (yields_star_cls t)
    | false =>
      rw [List.dropWhile_cons_of_neg (by simp [h])]
      exact yields_star_stop (yields_cls_no h)

/-- Two spellings of one character: the star of an action on a class. -/
theorem yields_star_of {e : Exp} (p : Char → Bool) (h0 : Never G S e [])
    (h1 : ∀ x t, p x = true → Yields G S e (x :: t) (some t)) (h2 : ∀ x t, p x = false → Never G S e (x :: t)) :
    ∀ t : Text, Yields G S (.star e) t (some (t.dropWhile p))
  | [] => yields_star_stop h0
  | x :: t => by
    cases h : p x with
    | true =>
      rw [List.dropWhile_cons_of_pos h]
      exact yields_star_step (h1 x t h) (yields_star_of p h0 h1 h2 t)
    | false =>
      rw [List.dropWhile_cons_of_neg (by simp [h])]
      exact yields_star_stop (h2 x t h)

end Peg
end Verif
