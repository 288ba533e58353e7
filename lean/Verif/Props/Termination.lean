import Verif.Proofs.Tokens

/-!
# C45 — Parsing always ends

Every rule of the grammar, used as an entry point, ends on every text and from every state of the parser, whatever
the code in the grammar does: user macros, attributes, enabled substitutions, tracked characters…
-/
namespace Verif
namespace C45
open Peg Grammar

/-- Four predicates of the grammar check that something was matched since the beginning of their sequence:
`attributes != nil || element != nil` (parser.peg:253), `!types.AllNilEntries(value)` (parser.peg:530),
`fullName != nil || email != nil` (parser.peg:1131) and `multiplier != nil || … || comma != nil`
(parser.peg:2680). -/
def ChecksProgress {σ : Type} (S : Sem σ) : Prop :=
  ∀ id ∈ [47, 85, 181, 428], ∀ s st t, (S.pred id s st t).1 = true → t.length < st.length

/-- **C45**: parsing ends, from every rule, on every text, from every state, for all meanings of the code in the
grammar in which the four predicates above do their job; and what remains is a suffix of the text. -/
theorem parse_ends {σ : Type} (S : Sem σ) (hS : ChecksProgress S) (i : Nat) (s : σ) (t : Text) :
    ∃ n r, run grammar S n (.rule i) t s t = some r ∧ ∀ u, r.rest = some u → u <:+ t := by
  have hE : ∀ e ∈ cert.exempt, ∀ n st s t s' u, run grammar S n e st s t = some (.ok s' u) → u.length < t.length := by
    intro e he n st s t s' u h
    rw [List.mem_singleton.mp he] at h
    exact cellLine_consumes h
  obtain ⟨n, r, h⟩ := Peg.ends cert grammar S valid hS hE t.length t rfl cert.top (.rule i) rfl (leftOk_top valid _) t s
  exact ⟨n, r, h, (fact cert grammar S valid.toSound hS n _ _ _ _ _ h).suffix⟩

/-- The same for expressions of the grammar whose iterations are those of the grammar. -/
theorem exp_ends {σ : Type} (S : Sem σ) (hS : ChecksProgress S) (e : Exp) (he : starsOk cert e = true)
    (st : Text) (s : σ) (t : Text) : ∃ r, Eval grammar S e st s t r := by
  have hE : ∀ e ∈ cert.exempt, ∀ n st s t s' u, run grammar S n e st s t = some (.ok s' u) → u.length < t.length := by
    intro e he n st s t s' u h
    rw [List.mem_singleton.mp he] at h
    exact cellLine_consumes h
  obtain ⟨n, r, h⟩ := Peg.ends cert grammar S valid hS hE t.length t rfl cert.top e he (leftOk_top valid _) st s
  exact ⟨r, n, h⟩

/-- The result does not depend on the bound on the depth of calls. -/
theorem parse_deterministic {σ : Type} (S : Sem σ) (i : Nat) (s : σ) (t : Text) {n m : Nat} {r r' : Res σ}
    (h : run grammar S n (.rule i) t s t = some r) (h' : run grammar S m (.rule i) t s t = some r') : r = r' :=
  run_det grammar S h h'

/-- A meaning of the code in which the hypothesis holds, with predicates of both values. -/
def someSem : Sem Nat where
  letter c := c.isAlpha
  number c := c.isDigit
  pred id s st t := (decide (t.length < st.length), s + id)
  state id s _ _ := s + id
  act id s _ _ := s + id
  restore saved _ := saved

example : ChecksProgress someSem := fun _ _ _ _ _ h => of_decide_eq_true h

/-- The optional parts of a sequence. -/
def optionalParts : Exp → List Exp
  | .seq a b => optionalParts a ++ optionalParts b
  | .opt e => [e]
  | .act _ e => optionalParts e
  | .scope e => optionalParts e
  | _ => []

theorem weak_progress {σ : Type} (S : Sem σ) : Progress weak S := fun _ h => absurd h (by simp [weak])

theorem consumes_of_weak {σ : Type} (S : Sem σ) {e : Exp} (h0 : (an0 weak e).1 = false) (h1 : (an1 weak e).1 = false)
    {n : Nat} {st : Text} {s s' : σ} {t u : Text} (h : run grammar S n e st s t = some (.ok s' u)) :
    u.length < t.length := by
  have f := fact weak grammar S weak_sound (weak_progress S) n e st s t _ h
  have hs := f.suffix u rfl
  rcases Nat.lt_or_ge u.length t.length with hl | hl
  · exact hl
  · have e' : u = t := eq_of_suffix_length hs hl
    by_cases ht : t = []
    · exact absurd (f.may0 ht rfl) (by simp [h0])
    · exact absurd (f.may1 ht (by rw [e']; rfl)) (by simp [h1])

/-- Why the hypothesis is right for three of them: the labels these predicates look at are those of optional parts,
and in these three rules an optional part that matches consumes something, for all meanings of the code. When
nothing was consumed all labels are nil, and the predicate is false. -/
theorem optional_parts_consume {σ : Type} (S : Sem σ) (i : Nat)
    (hi : i ∈ [R.DocumentFragment, R.DocumentAuthor, R.Column]) (e : Exp) (he : e ∈ optionalParts (grammar i))
    {n : Nat} {st : Text} {s s' : σ} {t u : Text} (h : run grammar S n e st s t = some (.ok s' u)) :
    u.length < t.length := by
  have hall : [R.DocumentFragment, R.DocumentAuthor, R.Column].all (fun i =>
      (optionalParts (grammar i)).all fun e => !(an0 weak e).1 && !(an1 weak e).1) = true := by decide +kernel
  have := List.all_eq_true.mp (List.all_eq_true.mp hall i hi) e he
  simp only [Bool.and_eq_true, Bool.not_eq_true'] at this
  exact consumes_of_weak S this.1 this.2 h

example : (optionalParts (grammar R.DocumentFragment)).length = 2 ∧ (optionalParts (grammar R.DocumentAuthor)).length = 3 ∧
    (optionalParts (grammar R.Column)).length = 6 := by decide +kernel

/-- The fourth one (the empty positional attribute, parser.peg:528): when nothing was consumed before the
predicate, no space matched, and no comma: `value` only has nil entries. -/
theorem empty_positional {σ : Type} (S : Sem σ) {st : Text} {s s' : σ} {t : Text}
    (h : Eval grammar S (.scope (.seq (.star (.rule R.Space)) (.alt (.scope (.seq (.lit [',']) (.star (.rule R.Space))))
      (.andP (.lit [']']))))) st s t (.ok s' t)) : ∃ u, t = ']' :: u := by
  cases t with
  | nil =>
    have : Never grammar S (.scope (.seq (.star (.rule R.Space)) (.alt (.scope (.seq (.lit [',']) (.star (.rule R.Space))))
      (.andP (.lit [']']))))) [] := by
      refine yields_scope (yields_seq yields_spaces (yields_alt_right (yields_scope (never_seq yields_lit))
        (never_andP yields_lit)))
    cases this _ _ _ h
  | cons c t =>
    by_cases hc : c = ']'
    · exact ⟨t, by rw [hc]⟩
    · -- the rest is strictly shorter, or there is no success
      exfalso
      rcases eval_scope.mp h with ⟨_, _, h'⟩ | ⟨_, _, h1, h'⟩
      · cases h'
      cases h'
      rcases eval_seq.mp h1 with ⟨_, _, h'⟩ | ⟨s1, v, h2, h3⟩
      · cases h'
      have e2 : v = (c :: t).dropWhile isBlank := by
        have := yields_spaces _ _ _ h2
        exact Option.some.inj this
      have l3 : (c :: t).length ≤ v.length := by
        rcases eval_alt.mp h3 with ⟨s2, h4, h5⟩ | ⟨s2, w, h4, h5⟩
        · rcases eval_andP.mp h5 with ⟨_, _, h6⟩ | ⟨_, _, _, h6⟩
          · cases h6
          · cases h6; exact Nat.le_refl _
        · cases h5
          exact (fact weak grammar S weak_sound (weak_progress S) _ _ _ _ _ _ h4.choose_spec).suffix _ rfl |>.length_le
      have hv : v = c :: t := by
        rw [e2] at l3 ⊢
        exact eq_of_suffix_length (List.dropWhile_suffix _) l3
      rw [hv] at h3
      rcases eval_alt.mp h3 with ⟨s2, h4, h5⟩ | ⟨s2, w, h4, h5⟩
      · have : matchLit [']'] (c :: t) = none := by simp [matchLit, Ne.symm hc]
        cases (never_andP (yields_lit.to this)) _ _ _ h5
      · cases h5
        obtain ⟨n, h4⟩ := h4
        have : (c :: t).length < (c :: t).length := consumes_of_weak S (by rfl) (by rfl) h4
        omega

/-- **The predicates are needed**: without the check at the end of `Column` (parser.peg:2680), reading the
columns `x` never ends. -/
theorem checks_needed : ∃ S : Sem Unit, (∀ id, id ≠ 428 → ∀ s st t, (S.pred id s st t).1 = true → t.length < st.length) ∧
    ∀ n, run grammar S n (.rule R.TableColumnsAttribute) ['x'] () ['x'] = none := by
  let S : Sem Unit := ⟨fun c => c.isAlpha, fun c => c.isDigit, fun id _ st t => (id == 428 || decide (t.length < st.length), ()),
    fun _ _ _ _ => (), fun _ _ _ _ => (), fun _ _ => ()⟩
  refine ⟨S, fun id hid s st t h => ?_, ?_⟩
  · have : (id == 428) = false := by simpa using hid
    simpa [S, this] using h
  have hcol : ∀ st, Eval grammar S (.rule R.Column) st () ['x'] (.ok () ['x']) := fun st => ⟨30, by rfl⟩
  have hstar : ∀ n st, run grammar S n (.star (.rule R.Column)) st () ['x'] = none := by
    intro n
    induction n with
    | zero => intro st; rfl
    | succ n ih =>
      intro st
      unfold run
      cases h : run grammar S n (.rule R.Column) st () ['x'] with
      | none => rfl
      | some r =>
        cases Eval.det ⟨n, h⟩ (hcol st)
        exact ih st
  intro n
  cases hn : run grammar S n (.rule R.TableColumnsAttribute) ['x'] () ['x'] with
  | none => rfl
  | some r =>
    have h1 := eval_rule.mp (⟨n, hn⟩ : Eval grammar S _ _ _ _ _)
    have h2 : ∃ s u, Eval grammar S (.star (.rule R.Column)) ['x'] () ['x'] (.ok s u) ∨
        Eval grammar S (.star (.rule R.Column)) ['x'] () ['x'] (.fail s) := by
      have key : ∀ r, Eval grammar S (.scope (.seq (.star (.rule R.Column)) (.rule R.EOF))) ['x'] () ['x'] r →
          ∃ s u, Eval grammar S (.star (.rule R.Column)) ['x'] () ['x'] (.ok s u) ∨
        Eval grammar S (.star (.rule R.Column)) ['x'] () ['x'] (.fail s) := by
        intro r h
        rcases eval_scope.mp h with ⟨_, h, _⟩ | ⟨_, _, h, _⟩ <;>
          rcases eval_seq.mp h with ⟨s1, h, _⟩ | ⟨s1, u1, h, _⟩
        · exact ⟨s1, [], .inr h⟩
        · exact ⟨s1, u1, .inl h⟩
        · exact ⟨s1, [], .inr h⟩
        · exact ⟨s1, u1, .inl h⟩
      rcases eval_act.mp h1 with ⟨_, h, _⟩ | ⟨_, _, h, _⟩ <;> exact key _ h
    obtain ⟨s, u, ⟨m, h⟩ | ⟨m, h⟩⟩ := h2 <;> rw [hstar] at h <;> cases h

end C45
end Verif
