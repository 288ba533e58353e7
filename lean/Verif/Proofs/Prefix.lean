import Verif.Proofs.Possible

/-!
The possible results of an expression on all the texts that begin with a given prefix, when only some predicates are
known (`K`), for all states and all meanings of the rest of the code: an interpreter that follows all branches
within the prefix, and its soundness.
-/
namespace Verif
namespace Peg

/-- A possible result: a failure, a success in the prefix, a success somewhere in what follows the prefix. -/
inductive PRes where
  | fail
  | at (p : Text)
  | beyond
deriving DecidableEq, Repr

/-- The actual results `y` stands for, when the prefix is followed by `x`. -/
def PRes.covers (x : Text) : PRes → Option Text → Prop
  | .fail, o => o = none
  | .at p, o => o = some (p ++ x)
  | .beyond, o => ∃ u, o = some u ∧ u <:+ x

/-- Union. -/
def addAll (a b : List PRes) : List PRes := a.filter (fun y => !b.contains y) ++ b

theorem mem_addAll {a b : List PRes} {y : PRes} (h : y ∈ a ∨ y ∈ b) : y ∈ addAll a b := by
  unfold addAll
  by_cases hb : y ∈ b
  · exact List.mem_append_right _ hb
  · exact List.mem_append_left _ (List.mem_filter.mpr ⟨h.resolve_right hb, by simpa using hb⟩)

/-- A literal. -/
def litO : List Char → Text → List PRes
  | [], p => [.at p]
  | _ :: _, [] => [.fail, .beyond]
  | a :: l, c :: p => if a = c then litO l p else [.fail]

/-- The same, ignoring case. -/
def litIO : List Char → Text → List PRes
  | [], p => [.at p]
  | _ :: _, [] => [.fail, .beyond]
  | a :: l, c :: p => if lower a = lower c then litIO l p else [.fail]

/-- For each possible result, what follows. -/
def thenAll (f : Text → Option (List PRes)) (after : List PRes) : List PRes → Option (List PRes)
  | [] => some []
  | .fail :: l => (thenAll f after l).map (addAll [.fail])
  | .beyond :: l => (thenAll f after l).map (addAll after)
  | .at p :: l => match f p with
    | none => none
    | some m => (thenAll f after l).map (addAll m)

/-- The possible results. -/
def runO (G : Nat → Exp) (K : Nat → Text → Option Bool) : Nat → Exp → Text → Text → Option (List PRes)
  | 0, _, _, _ => none
  | _ + 1, .eps, _, p => some [.at p]
  | _ + 1, .any, _, p => match p with
    | [] => some [.fail, .beyond]
    | _ :: r => some [.at r]
  | _ + 1, .lit l, _, p => some (litO l p)
  | _ + 1, .litI l, _, p => some (litIO l p)
  | _ + 1, .cls c, _, p => match p with
    | [] => some [.fail, .beyond]
    | x :: r => match c.has3 x with
      | none => some [.fail, .at r]
      | some true => some [.at r]
      | some false => some [.fail]
  | n + 1, .seq a b, st, p => match runO G K n a st p with
    | none => none
    | some l => thenAll (fun q => runO G K n b st q) [.fail, .beyond] l
  | n + 1, .alt a b, st, p => match runO G K n a st p with
    | none => none
    | some l => if l.contains .fail then (runO G K n b st p).map (addAll (l.filter (fun y => y != .fail))) else some l
  | n + 1, .star e, st, p => match runO G K n e st p with
    | none => none
    | some l => (thenAll (fun q => runO G K n (.star e) st q) [.beyond] (l.filter (fun y => y != .fail))).map
        (addAll (if l.contains .fail then [.at p] else []))
  | n + 1, .plus e, st, p => match runO G K n e st p with
    | none => none
    | some l => thenAll (fun q => runO G K n (.star e) st q) [.beyond] l
  | n + 1, .opt e, st, p => (runO G K n e st p).map (fun l => l.map (fun y => if y = .fail then .at p else y))
  | n + 1, .andP e, st, p => (runO G K n e st p).map (fun l => l.map (fun y => if y = .fail then .fail else .at p))
  | n + 1, .notP e, st, p => (runO G K n e st p).map (fun l => l.map (fun y => if y = .fail then .at p else .fail))
  | n + 1, .rule i, _, p => runO G K n (G i) p p
  | _ + 1, .pred id, st, p => match K id (st.take (st.length - p.length)) with
    | none => some [.fail, .at p]
    | some true => some [.at p]
    | some false => some [.fail]
  | _ + 1, .state _, _, p => some [.at p]
  | n + 1, .act _ e, st, p => runO G K n e st p
  | n + 1, .scope e, _, p => runO G K n e p p

/-- The code agrees with what is known: the predicates of `K`, given what was consumed in the sequence, and letters
and numbers in ASCII. -/
structure Follows {σ : Type} (S : Sem σ) (K : Nat → Text → Option Bool) : Prop where
  pred : ∀ id s p t b, K id p = some b → (S.pred id s (p ++ t) t).1 = b
  letter : ∀ c, c.toNat < 128 → S.letter c = c.isAlpha
  number : ∀ c, c.toNat < 128 → S.number c = c.isDigit

theorem litO_covers (x : Text) : ∀ (l : List Char) (p : Text), ∃ y ∈ litO l p, y.covers x (matchLit l (p ++ x))
  | [], p => ⟨_, List.mem_cons_self, rfl⟩
  | a :: l, [] => by
    show ∃ y ∈ [PRes.fail, PRes.beyond], y.covers x (matchLit (a :: l) x)
    cases h : matchLit (a :: l) x with
    | none => exact ⟨.fail, by simp, rfl⟩
    | some u => exact ⟨.beyond, by simp, u, rfl, matchLit_suffix _ _ _ h⟩
  | a :: l, c :: p => by
    show ∃ y ∈ litO (a :: l) (c :: p), y.covers x (matchLit (a :: l) (c :: (p ++ x)))
    unfold litO matchLit
    split
    · exact litO_covers x l p
    · exact ⟨.fail, by simp, rfl⟩

theorem litIO_covers (x : Text) : ∀ (l : List Char) (p : Text), ∃ y ∈ litIO l p, y.covers x (matchLitI l (p ++ x))
  | [], p => ⟨_, List.mem_cons_self, rfl⟩
  | a :: l, [] => by
    show ∃ y ∈ [PRes.fail, PRes.beyond], y.covers x (matchLitI (a :: l) x)
    cases h : matchLitI (a :: l) x with
    | none => exact ⟨.fail, by simp, rfl⟩
    | some u => exact ⟨.beyond, by simp, u, rfl, matchLitI_suffix _ _ _ h⟩
  | a :: l, c :: p => by
    show ∃ y ∈ litIO (a :: l) (c :: p), y.covers x (matchLitI (a :: l) (c :: (p ++ x)))
    unfold litIO matchLitI
    split
    · exact litIO_covers x l p
    · exact ⟨.fail, by simp, rfl⟩

theorem mem_thenAll {f : Text → Option (List PRes)} {after : List PRes} : ∀ {l m : List PRes}, thenAll f after l = some m →
    (.fail ∈ l → .fail ∈ m) ∧ (.beyond ∈ l → ∀ y ∈ after, y ∈ m) ∧ (∀ p, .at p ∈ l → ∃ k, f p = some k ∧ ∀ y ∈ k, y ∈ m)
  | [], _, _ => ⟨(fun h => nomatch h), (fun h => nomatch h), (fun _ h => nomatch h)⟩
  | z :: l, m, h => by
    have key : ∃ a m', thenAll f after l = some m' ∧ m = addAll a m' ∧ (z = .fail → a = [.fail]) ∧ (z = .beyond → a = after) ∧
        (∀ p, z = .at p → f p = some a) := by
      cases hl : thenAll f after l with
      | none =>
        cases z with
        | fail => unfold thenAll at h; rw [hl] at h; cases h
        | beyond => unfold thenAll at h; rw [hl] at h; cases h
        | «at» p =>
          unfold thenAll at h
          cases hp : f p with
          | none => rw [hp] at h; cases h
          | some k => rw [hp, hl] at h; cases h
      | some m' =>
        cases z with
        | fail =>
          unfold thenAll at h; rw [hl] at h; cases h
          exact ⟨_, m', rfl, rfl, fun _ => rfl, (fun h => nomatch h), (fun _ h => nomatch h)⟩
        | beyond =>
          unfold thenAll at h; rw [hl] at h; cases h
          exact ⟨_, m', rfl, rfl, (fun h => nomatch h), fun _ => rfl, (fun _ h => nomatch h)⟩
        | «at» p =>
          unfold thenAll at h
          cases hp : f p with
          | none => rw [hp] at h; cases h
          | some k =>
            rw [hp, hl] at h; cases h
            exact ⟨k, m', rfl, rfl, (fun h => nomatch h), (fun h => nomatch h), fun q e => by cases e; exact hp⟩
    obtain ⟨a, m', hm', rfl, h1, h2, h3⟩ := key
    obtain ⟨i1, i2, i3⟩ := mem_thenAll hm'
    refine ⟨fun hz => ?_, fun hz y hy => ?_, fun p hz => ?_⟩
    · rcases List.mem_cons.mp hz with e | hz
      · exact mem_addAll (.inl (by rw [h1 e.symm]; exact List.mem_cons_self))
      · exact mem_addAll (.inr (i1 hz))
    · rcases List.mem_cons.mp hz with e | hz
      · exact mem_addAll (.inl (by rw [h2 e.symm]; exact hy))
      · exact mem_addAll (.inr (i2 hz y hy))
    · rcases List.mem_cons.mp hz with e | hz
      · exact ⟨a, h3 p e.symm, fun y hy => mem_addAll (.inl hy)⟩
      · obtain ⟨k, hk, hs⟩ := i3 p hz
        exact ⟨k, hk, fun y hy => mem_addAll (.inr (hs y hy))⟩

section
variable {σ : Type} (G : Nat → Exp) (S : Sem σ) (K : Nat → Text → Option Bool)

/-- What remains is a suffix of the text. -/
theorem run_suffix : ∀ (n : Nat) (e : Exp) (st : Text) (s : σ) (t : Text) (r : Res σ), run G S n e st s t = some r →
    ∀ u, r.rest = some u → u <:+ t := by
  intro n
  induction n with
  | zero => intro e st s t r h; cases h
  | succ n ih =>
    intro e st s t r h u hu
    have hE := eval_of_run h
    cases e with
    | eps => rw [eval_eps.mp hE] at hu; cases hu; exact List.suffix_refl _
    | any =>
      cases t with
      | nil => rw [eval_any_nil.mp hE] at hu; cases hu
      | cons c t => rw [eval_any_cons.mp hE] at hu; cases hu; exact List.suffix_cons _ _
    | lit l =>
      rw [eval_lit.mp hE] at hu
      cases hm : matchLit l t with
      | none => rw [hm] at hu; cases hu
      | some v => rw [hm] at hu; cases hu; exact matchLit_suffix _ _ _ hm
    | litI l =>
      rw [eval_litI.mp hE] at hu
      cases hm : matchLitI l t with
      | none => rw [hm] at hu; cases hu
      | some v => rw [hm] at hu; cases hu; exact matchLitI_suffix _ _ _ hm
    | cls c =>
      cases t with
      | nil => rw [eval_cls_nil.mp hE] at hu; cases hu
      | cons x t =>
        rw [eval_cls_cons.mp hE] at hu
        split at hu
        · cases hu; exact List.suffix_cons _ _
        · cases hu
    | seq a b =>
      unfold run at h
      cases ha : run G S n a st s t with
      | none => rw [ha] at h; cases h
      | some x =>
        rw [ha] at h
        cases x with
        | fail s' => cases h; cases hu
        | ok s' v => exact (ih _ _ _ _ _ h u hu).trans (ih _ _ _ _ _ ha v rfl)
    | alt a b =>
      unfold run at h
      cases ha : run G S n a st s t with
      | none => rw [ha] at h; cases h
      | some x =>
        rw [ha] at h
        cases x with
        | fail s' => exact ih _ _ _ _ _ h u hu
        | ok s' v => cases h; exact ih _ _ _ _ _ ha u hu
    | star e =>
      unfold run at h
      cases ha : run G S n e st s t with
      | none => rw [ha] at h; cases h
      | some x =>
        rw [ha] at h
        cases x with
        | fail s' => cases h; cases hu; exact List.suffix_refl _
        | ok s' v => exact (ih _ _ _ _ _ h u hu).trans (ih _ _ _ _ _ ha v rfl)
    | plus e =>
      unfold run at h
      cases ha : run G S n e st s t with
      | none => rw [ha] at h; cases h
      | some x =>
        rw [ha] at h
        cases x with
        | fail s' => cases h; cases hu
        | ok s' v => exact (ih _ _ _ _ _ h u hu).trans (ih _ _ _ _ _ ha v rfl)
    | opt e =>
      unfold run at h
      cases ha : run G S n e st s t with
      | none => rw [ha] at h; cases h
      | some x =>
        rw [ha] at h
        cases x with
        | fail s' => cases h; cases hu; exact List.suffix_refl _
        | ok s' v => cases h; exact ih _ _ _ _ _ ha u hu
    | andP e =>
      unfold run at h
      cases ha : run G S n e st s t with
      | none => rw [ha] at h; cases h
      | some x =>
        rw [ha] at h
        cases x with
        | fail s' => cases h; cases hu
        | ok s' v => cases h; cases hu; exact List.suffix_refl _
    | notP e =>
      unfold run at h
      cases ha : run G S n e st s t with
      | none => rw [ha] at h; cases h
      | some x =>
        rw [ha] at h
        cases x with
        | fail s' => cases h; cases hu; exact List.suffix_refl _
        | ok s' v => cases h; cases hu
    | rule i => unfold run at h; exact ih _ _ _ _ _ h u hu
    | pred id =>
      rw [eval_pred.mp hE] at hu
      rcases hp : S.pred id s st t with ⟨b, s'⟩
      rw [hp] at hu
      cases b
      · cases hu
      · cases hu; exact List.suffix_refl _
    | state id => rw [eval_state.mp hE] at hu; cases hu; exact List.suffix_refl _
    | act id e =>
      unfold run at h
      cases ha : run G S n e st s t with
      | none => rw [ha] at h; cases h
      | some x =>
        rw [ha] at h
        cases x with
        | fail s' => cases h; cases hu
        | ok s' v => cases h; cases hu; exact ih _ _ _ _ _ ha u rfl
    | scope e =>
      unfold run at h
      cases ha : run G S n e t s t with
      | none => rw [ha] at h; cases h
      | some x =>
        rw [ha] at h
        cases x with
        | fail s' => cases h; cases hu
        | ok s' v => cases h; cases hu; exact ih _ _ _ _ _ ha u rfl

variable {G S}

theorem Eval.suffix {e : Exp} {st : Text} {s s' : σ} {t u : Text} (h : Eval G S e st s t (.ok s' u)) : u <:+ t := by
  obtain ⟨n, h⟩ := h
  exact run_suffix G S n e st s t _ h u rfl

theorem cut {q p x : Text} (h : q ++ x <:+ p ++ x) : q <:+ p := by
  obtain ⟨z, h⟩ := h
  exact ⟨z, List.append_cancel_right (by rw [List.append_assoc]; exact h)⟩

variable (G S)

/-- After a success that `y` covers, the rest of a sequence. -/
theorem covers_next {K : Nat → Text → Option Bool} {n : Nat} {e : Exp} {st p x : Text} {l m after : List PRes} {y : PRes} {s : σ} {v : Text}
    {r : Res σ} (hthen : thenAll (fun q => runO G K n e st q) after l = some m) (hy : y ∈ l) (hcov : y.covers x (some v))
    (hp : p <:+ st) (hv : v <:+ p ++ x) (hev : Eval G S e (st ++ x) s v r)
    (hafter : ∀ r, (∃ u, u <:+ x ∧ ∃ s, Eval G S e (st ++ x) s u r) → ∃ z ∈ after, z.covers x r.rest)
    (ih : ∀ q l, runO G K n e st q = some l → q <:+ st → ∀ s r, Eval G S e (st ++ x) s (q ++ x) r → ∃ z ∈ l, z.covers x r.rest) :
    ∃ z ∈ m, z.covers x r.rest := by
  obtain ⟨_, h2, h3⟩ := mem_thenAll hthen
  cases y with
  | fail => cases hcov
  | «at» q =>
    cases hcov
    obtain ⟨k, hk, hs⟩ := h3 q hy
    obtain ⟨z, hz, hc⟩ := ih q k hk ((cut hv).trans hp) s r hev
    exact ⟨z, hs z hz, hc⟩
  | beyond =>
    obtain ⟨u, hu, hux⟩ := hcov
    cases hu
    obtain ⟨z, hz, hc⟩ := hafter r ⟨v, hux, s, hev⟩
    exact ⟨z, h2 hy z hz, hc⟩

theorem any_beyond {e : Exp} {st x : Text} (r : Res σ) (h : ∃ u, u <:+ x ∧ ∃ s, Eval G S e st s u r) :
    ∃ z ∈ [PRes.fail, PRes.beyond], z.covers x r.rest := by
  obtain ⟨u, hu, s, hev⟩ := h
  cases r with
  | fail s' => exact ⟨.fail, by simp, rfl⟩
  | ok s' w => exact ⟨.beyond, by simp, w, rfl, hev.suffix.trans hu⟩

theorem star_beyond {e : Exp} {st x : Text} (r : Res σ) (h : ∃ u, u <:+ x ∧ ∃ s, Eval G S (.star e) st s u r) :
    ∃ z ∈ [PRes.beyond], z.covers x r.rest := by
  obtain ⟨u, hu, s, hev⟩ := h
  cases r with
  | fail s' =>
    exfalso
    obtain ⟨n, hev⟩ := hev
    clear hu
    induction n generalizing s u with
    | zero => cases hev
    | succ n ih =>
      unfold run at hev
      cases h : run G S n e st s u with
      | none => rw [h] at hev; cases hev
      | some y =>
        rw [h] at hev
        cases y with
        | fail s1 => cases hev
        | ok s1 v => exact ih v s1 hev
  | ok s' w => exact ⟨.beyond, by simp, w, rfl, hev.suffix.trans hu⟩

/-- Soundness: the actual result is covered by one of the possible ones. -/
theorem covered (hK : Follows S K) (x : Text) : ∀ (n : Nat) (e : Exp) (st p : Text) (l : List PRes),
    runO G K n e st p = some l → p <:+ st → ∀ s r, Eval G S e (st ++ x) s (p ++ x) r → ∃ y ∈ l, y.covers x r.rest := by
  intro n
  induction n with
  | zero => intro e st p l h; cases h
  | succ n ih =>
    intro e st p l h hp s r hev
    cases e with
    | eps => cases h; rw [eval_eps.mp hev]; exact ⟨_, List.mem_cons_self, rfl⟩
    | any =>
      cases p with
      | nil =>
        cases h
        exact any_beyond G S r ⟨x, List.suffix_refl _, s, hev⟩
      | cons c p => cases h; rw [eval_any_cons.mp hev]; exact ⟨_, List.mem_cons_self, rfl⟩
    | lit a =>
      cases h
      rw [eval_lit.mp hev]
      obtain ⟨y, hy, hc⟩ := litO_covers x a p
      refine ⟨y, hy, ?_⟩
      cases hm : matchLit a (p ++ x) <;> rw [hm] at hc <;> exact hc
    | litI a =>
      cases h
      rw [eval_litI.mp hev]
      obtain ⟨y, hy, hc⟩ := litIO_covers x a p
      refine ⟨y, hy, ?_⟩
      cases hm : matchLitI a (p ++ x) <;> rw [hm] at hc <;> exact hc
    | cls c =>
      cases p with
      | nil =>
        cases h
        exact any_beyond G S r ⟨x, List.suffix_refl _, s, hev⟩
      | cons d p =>
        have hev' := eval_cls_cons.mp hev
        cases h3 : c.has3 d with
        | none =>
          unfold runO at h; dsimp only at h; rw [h3] at h; cases h
          rw [hev']
          split
          · exact ⟨.at p, by simp, rfl⟩
          · exact ⟨.fail, by simp, rfl⟩
        | some b =>
          have hb : c.has S.letter S.number d = b := by
            unfold Cls.has3 at h3
            split at h3
            · cases h3
            · next hc =>
              cases h3
              unfold Cls.has
              by_cases hd : d.toNat < 128
              · rw [hK.letter d hd, hK.number d hd]
              · have : c.letters = false ∧ c.numbers = false := by
                  have hd : 128 ≤ d.toNat := by omega
                  simp [hd] at hc
                  exact hc
                rw [this.1, this.2]
                rfl
          unfold runO at h; dsimp only at h; rw [h3] at h
          rw [hb] at hev'
          cases b
          · cases h; rw [hev']; exact ⟨.fail, by simp, rfl⟩
          · cases h; rw [hev']; exact ⟨.at p, by simp, rfl⟩
    | seq a b =>
      unfold runO at h
      cases ha : runO G K n a st p with
      | none => rw [ha] at h; cases h
      | some la =>
        rw [ha] at h
        rcases eval_seq.mp hev with ⟨s1, h1, rfl⟩ | ⟨s1, v, h1, h2⟩
        · obtain ⟨y, hy, hc⟩ := ih _ _ _ _ ha hp _ _ h1
          cases y with
          | fail => exact ⟨.fail, (mem_thenAll h).1 hy, rfl⟩
          | «at» q => cases hc
          | beyond => obtain ⟨_, hc, _⟩ := hc; cases hc
        · obtain ⟨y, hy, hc⟩ := ih _ _ _ _ ha hp _ _ h1
          exact covers_next G S h hy hc hp h1.suffix h2 (any_beyond G S) (fun q l hq hs s r he => ih _ _ _ _ hq hs s r he)
    | alt a b =>
      unfold runO at h
      cases ha : runO G K n a st p with
      | none => rw [ha] at h; cases h
      | some la =>
        rw [ha] at h
        dsimp only at h
        rcases eval_alt.mp hev with ⟨s1, h1, h2⟩ | ⟨s1, v, h1, rfl⟩
        · obtain ⟨y, hy, hc⟩ := ih _ _ _ _ ha hp _ _ h1
          have hf : PRes.fail ∈ la := by
            cases y with
            | fail => exact hy
            | «at» q => cases hc
            | beyond => obtain ⟨_, hc, _⟩ := hc; cases hc
          rw [if_pos (by simpa using hf)] at h
          cases hb : runO G K n b st p with
          | none => rw [hb] at h; cases h
          | some lb =>
            rw [hb] at h; cases h
            obtain ⟨y, hy, hc⟩ := ih _ _ _ _ hb hp _ _ h2
            exact ⟨y, mem_addAll (.inr hy), hc⟩
        · obtain ⟨y, hy, hc⟩ := ih _ _ _ _ ha hp _ _ h1
          have hne : y ≠ .fail := by rintro rfl; cases hc
          split at h
          · cases hb : runO G K n b st p with
            | none => rw [hb] at h; cases h
            | some lb =>
              rw [hb] at h; cases h
              exact ⟨y, mem_addAll (.inl (List.mem_filter.mpr ⟨hy, by simpa using hne⟩)), hc⟩
          · cases h; exact ⟨y, hy, hc⟩
    | star e =>
      unfold runO at h
      cases ha : runO G K n e st p with
      | none => rw [ha] at h; cases h
      | some la =>
        rw [ha] at h
        dsimp only at h
        cases ht : thenAll (fun q => runO G K n (.star e) st q) [.beyond] (la.filter (fun y => y != .fail)) with
        | none => rw [ht] at h; cases h
        | some m =>
          rw [ht] at h; cases h
          rcases eval_star.mp hev with ⟨s1, h1, rfl⟩ | ⟨s1, v, h1, h2⟩
          · obtain ⟨y, hy, hc⟩ := ih _ _ _ _ ha hp _ _ h1
            have hf : PRes.fail ∈ la := by
              cases y with
              | fail => exact hy
              | «at» q => cases hc
              | beyond => obtain ⟨_, hc, _⟩ := hc; cases hc
            rw [if_pos (by simpa using hf)]
            exact ⟨.at p, mem_addAll (.inl List.mem_cons_self), rfl⟩
          · obtain ⟨y, hy, hc⟩ := ih _ _ _ _ ha hp _ _ h1
            have hne : y ≠ .fail := by rintro rfl; cases hc
            obtain ⟨z, hz, hc'⟩ := covers_next G S ht (List.mem_filter.mpr ⟨hy, by simpa using hne⟩) hc hp h1.suffix h2
              (star_beyond G S) (fun q l hq hs s r he => ih _ _ _ _ hq hs s r he)
            exact ⟨z, mem_addAll (.inr hz), hc'⟩
    | plus e =>
      unfold runO at h
      cases ha : runO G K n e st p with
      | none => rw [ha] at h; cases h
      | some la =>
        rw [ha] at h
        rcases eval_plus.mp hev with ⟨s1, h1, rfl⟩ | ⟨s1, v, h1, h2⟩
        · obtain ⟨y, hy, hc⟩ := ih _ _ _ _ ha hp _ _ h1
          cases y with
          | fail => exact ⟨.fail, (mem_thenAll h).1 hy, rfl⟩
          | «at» q => cases hc
          | beyond => obtain ⟨_, hc, _⟩ := hc; cases hc
        · obtain ⟨y, hy, hc⟩ := ih _ _ _ _ ha hp _ _ h1
          exact covers_next G S h hy hc hp h1.suffix h2 (star_beyond G S) (fun q l hq hs s r he => ih _ _ _ _ hq hs s r he)
    | opt e =>
      unfold runO at h
      cases ha : runO G K n e st p with
      | none => rw [ha] at h; cases h
      | some la =>
        rw [ha] at h; cases h
        rcases eval_opt.mp hev with ⟨s1, h1, rfl⟩ | ⟨s1, v, h1, rfl⟩
        · obtain ⟨y, hy, hc⟩ := ih _ _ _ _ ha hp _ _ h1
          refine ⟨.at p, List.mem_map.mpr ⟨y, hy, ?_⟩, rfl⟩
          cases y with
          | fail => rfl
          | «at» q => cases hc
          | beyond => obtain ⟨_, hc, _⟩ := hc; cases hc
        · obtain ⟨y, hy, hc⟩ := ih _ _ _ _ ha hp _ _ h1
          have hne : y ≠ .fail := by rintro rfl; cases hc
          exact ⟨y, List.mem_map.mpr ⟨y, hy, if_neg hne⟩, hc⟩
    | andP e =>
      unfold runO at h
      cases ha : runO G K n e st p with
      | none => rw [ha] at h; cases h
      | some la =>
        rw [ha] at h; cases h
        rcases eval_andP.mp hev with ⟨s1, h1, rfl⟩ | ⟨s1, v, h1, rfl⟩
        · obtain ⟨y, hy, hc⟩ := ih _ _ _ _ ha hp _ _ h1
          refine ⟨.fail, List.mem_map.mpr ⟨y, hy, ?_⟩, rfl⟩
          cases y with
          | fail => rfl
          | «at» q => cases hc
          | beyond => obtain ⟨_, hc, _⟩ := hc; cases hc
        · obtain ⟨y, hy, hc⟩ := ih _ _ _ _ ha hp _ _ h1
          have hne : y ≠ .fail := by rintro rfl; cases hc
          exact ⟨.at p, List.mem_map.mpr ⟨y, hy, if_neg hne⟩, rfl⟩
    | notP e =>
      unfold runO at h
      cases ha : runO G K n e st p with
      | none => rw [ha] at h; cases h
      | some la =>
        rw [ha] at h; cases h
        rcases eval_notP.mp hev with ⟨s1, h1, rfl⟩ | ⟨s1, v, h1, rfl⟩
        · obtain ⟨y, hy, hc⟩ := ih _ _ _ _ ha hp _ _ h1
          refine ⟨.at p, List.mem_map.mpr ⟨y, hy, ?_⟩, rfl⟩
          cases y with
          | fail => rfl
          | «at» q => cases hc
          | beyond => obtain ⟨_, hc, _⟩ := hc; cases hc
        · obtain ⟨y, hy, hc⟩ := ih _ _ _ _ ha hp _ _ h1
          have hne : y ≠ .fail := by rintro rfl; cases hc
          exact ⟨.fail, List.mem_map.mpr ⟨y, hy, if_neg hne⟩, rfl⟩
    | rule i =>
      unfold runO at h
      exact ih _ _ _ _ h (List.suffix_refl _) _ _ (eval_rule.mp hev)
    | pred id =>
      have hev' := eval_pred.mp hev
      obtain ⟨c, rfl⟩ := hp
      have e1 : (c ++ p).take ((c ++ p).length - p.length) = c := by
        rw [List.length_append, Nat.add_sub_cancel, List.take_left' rfl]
      unfold runO at h
      rw [e1] at h
      rcases hq : S.pred id s (c ++ p ++ x) (p ++ x) with ⟨b, s'⟩
      rw [hq] at hev'
      cases hk : K id c with
      | none =>
        rw [hk] at h; cases h
        cases b
        · rw [hev']; exact ⟨.fail, by simp, rfl⟩
        · rw [hev']; exact ⟨.at p, by simp, rfl⟩
      | some b' =>
        have := hK.pred id s c (p ++ x) b' hk
        rw [← List.append_assoc, hq] at this
        have : b = b' := this
        subst this
        rw [hk] at h
        cases b
        · cases h; rw [hev']; exact ⟨.fail, by simp, rfl⟩
        · cases h; rw [hev']; exact ⟨.at p, by simp, rfl⟩
    | state id => cases h; rw [eval_state.mp hev]; exact ⟨_, List.mem_cons_self, rfl⟩
    | act id e =>
      unfold runO at h
      rcases eval_act.mp hev with ⟨s1, h1, rfl⟩ | ⟨s1, v, h1, rfl⟩
      · exact ih _ _ _ _ h hp _ _ h1
      · have := ih _ _ _ _ h hp _ _ h1
        exact this
    | scope e =>
      unfold runO at h
      rcases eval_scope.mp hev with ⟨s1, h1, rfl⟩ | ⟨s1, v, h1, rfl⟩
      · have := ih _ _ _ _ h (List.suffix_refl _) _ _ h1
        exact this
      · exact ih _ _ _ _ h (List.suffix_refl _) _ _ h1

variable {G S K}

/-- When a rule can only fail on the prefix, it fails on all texts with that prefix. -/
theorem never_of_prefix (hK : Follows S K) {n i : Nat} {p : Text} (x : Text) (h : runO G K n (.rule i) p p = some [.fail]) :
    Never G S (.rule i) (p ++ x) := by
  intro st s r hr
  have hr : Eval G S (.rule i) (p ++ x) s (p ++ x) r := eval_rule.mpr (eval_rule.mp hr)
  obtain ⟨y, hy, hc⟩ := covered G S K hK x n _ p p _ h (List.suffix_refl _) s r hr
  rw [List.mem_singleton.mp hy] at hc
  exact hc

/-- When a rule can only stop at one place of the prefix, it does on all texts with that prefix. -/
theorem yields_of_prefix (hK : Follows S K) {n i : Nat} {p q : Text} (x : Text) (h : runO G K n (.rule i) p p = some [.at q]) :
    Yields G S (.rule i) (p ++ x) (some (q ++ x)) := by
  intro st s r hr
  have hr : Eval G S (.rule i) (p ++ x) s (p ++ x) r := eval_rule.mpr (eval_rule.mp hr)
  obtain ⟨y, hy, hc⟩ := covered G S K hK x n _ p p _ h (List.suffix_refl _) s r hr
  rw [List.mem_singleton.mp hy] at hc
  exact hc

/-- When a rule cannot fail on the prefix, it does not on all texts with that prefix. -/
theorem sure_of_prefix (hK : Follows S K) {n i : Nat} {p : Text} (x : Text) {l : List PRes} (h : runO G K n (.rule i) p p = some l)
    (hl : l.contains .fail = false) : Sure G S (.rule i) (p ++ x) := by
  intro st s r hr
  have hr : Eval G S (.rule i) (p ++ x) s (p ++ x) r := eval_rule.mpr (eval_rule.mp hr)
  obtain ⟨y, hy, hc⟩ := covered G S K hK x n _ p p _ h (List.suffix_refl _) s r hr
  cases y with
  | fail => simp [hy] at hl
  | «at» q => rw [hc]; rfl
  | beyond => obtain ⟨u, hc, _⟩ := hc; rw [hc]; rfl

end
end Peg
end Verif
