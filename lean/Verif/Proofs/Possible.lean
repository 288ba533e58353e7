import Verif.Proofs.Yields

/-!
The possible results of an expression on a given text when only some predicates are known (`K`), for all states
and all meanings of the rest of the code: an interpreter that follows all branches, and its soundness.
-/
namespace Verif
namespace Peg

/-- Membership in a class, when it is known: letters and numbers outside ASCII are not. -/
def Cls.has3 (c : Cls) (x : Char) : Option Bool :=
  if (c.letters || c.numbers) && decide (128 ≤ x.toNat) then none
  else some (c.has (fun c => c.isAlpha) (fun c => c.isDigit) x)

/-- For each possible result, what follows. -/
def bindAll (f : Text → Option (List (Option Text))) : List (Option Text) → Option (List (Option Text))
  | [] => some []
  | none :: l => (bindAll f l).map (fun m => if m.contains none then m else none :: m)
  | some u :: l => match f u with
    | none => none
    | some x => (bindAll f l).map (fun m => x.filter (fun y => !m.contains y) ++ m)

/-- The possible results of a choice. -/
def altAll (a : List (Option Text)) (b : Option (List (Option Text))) : Option (List (Option Text)) :=
  if a.contains none then b.map (fun m => a.filter (fun y => y.isSome && !m.contains y) ++ m) else some a

/-- A failure leaves the text. -/
def orSelf (t : Text) (o : Option Text) : Option Text := some (o.getD t)

/-- The possible results. -/
def runP (G : Nat → Exp) (K : Nat → Text → Text → Option Bool) : Nat → Exp → Text → Text → Option (List (Option Text))
  | 0, _, _, _ => none
  | _ + 1, .eps, _, t => some [some t]
  | _ + 1, .any, _, t => match t with
    | [] => some [none]
    | _ :: r => some [some r]
  | _ + 1, .lit l, _, t => some [matchLit l t]
  | _ + 1, .litI l, _, t => some [matchLitI l t]
  | _ + 1, .cls c, _, t => match t with
    | [] => some [none]
    | x :: r => match c.has3 x with
      | none => some [none, some r]
      | some true => some [some r]
      | some false => some [none]
  | n + 1, .seq a b, st, t => match runP G K n a st t with
    | none => none
    | some l => bindAll (fun u => runP G K n b st u) l
  | n + 1, .alt a b, st, t => match runP G K n a st t with
    | none => none
    | some l => altAll l (runP G K n b st t)
  | n + 1, .star e, st, t => match runP G K n e st t with
    | none => none
    | some l => (bindAll (fun u => runP G K n (.star e) st u) (l.filter Option.isSome)).map
        (fun m => if l.contains none then some t :: m else m)
  | n + 1, .plus e, st, t => match runP G K n e st t with
    | none => none
    | some l => bindAll (fun u => runP G K n (.star e) st u) l
  | n + 1, .opt e, st, t => (runP G K n e st t).map (fun l => l.map (orSelf t))
  | n + 1, .andP e, st, t => (runP G K n e st t).map (fun l => l.map (fun o => o.map (fun _ => t)))
  | n + 1, .notP e, st, t => (runP G K n e st t).map (fun l => l.map (fun o => if o.isSome then none else some t))
  | n + 1, .rule i, _, t => runP G K n (G i) t t
  | _ + 1, .pred id, st, t => match K id st t with
    | none => some [none, some t]
    | some true => some [some t]
    | some false => some [none]
  | _ + 1, .state _, _, t => some [some t]
  | n + 1, .act _ e, st, t => runP G K n e st t
  | n + 1, .scope e, _, t => runP G K n e t t

/-- The code agrees with what is known: the predicates of `K`, and letters and numbers in ASCII. -/
structure Agrees {σ : Type} (S : Sem σ) (K : Nat → Text → Text → Option Bool) : Prop where
  pred : ∀ id s st t b, K id st t = some b → (S.pred id s st t).1 = b
  letter : ∀ c, c.toNat < 128 → S.letter c = c.isAlpha
  number : ∀ c, c.toNat < 128 → S.number c = c.isDigit

theorem mem_bindAll {f : Text → Option (List (Option Text))} : ∀ {l m : List (Option Text)}, bindAll f l = some m →
    (none ∈ l → none ∈ m) ∧ (∀ u, some u ∈ l → ∃ x, f u = some x ∧ ∀ y ∈ x, y ∈ m)
  | [], m, h => ⟨(fun h => nomatch h), (fun _ h => nomatch h)⟩
  | none :: l, m, h => by
    unfold bindAll at h
    cases hm : bindAll f l with
    | none => rw [hm] at h; cases h
    | some m' =>
      obtain ⟨h1, h2⟩ := mem_bindAll hm
      rw [hm] at h
      have h : (if m'.contains none then m' else none :: m') = m := Option.some.inj h
      have hsub : ∀ y ∈ m', y ∈ m := by
        intro y hy; rw [← h]; split
        · exact hy
        · exact List.mem_cons_of_mem _ hy
      refine ⟨fun _ => ?_, fun u hu => ?_⟩
      · rw [← h]; split
        · next hc => simpa using hc
        · exact List.mem_cons_self
      · obtain ⟨x, hx, hs⟩ := h2 u (by simpa using hu)
        exact ⟨x, hx, fun y hy => hsub y (hs y hy)⟩
  | some v :: l, m, h => by
    unfold bindAll at h
    cases hf : f v with
    | none => rw [hf] at h; cases h
    | some x =>
      rw [hf] at h
      cases hm : bindAll f l with
      | none => rw [hm] at h; cases h
      | some m' =>
        obtain ⟨h1, h2⟩ := mem_bindAll hm
        rw [hm] at h
        have h : x.filter (fun y => !m'.contains y) ++ m' = m := Option.some.inj h
        have hsub : ∀ y ∈ m', y ∈ m := fun y hy => h ▸ List.mem_append_right _ hy
        refine ⟨fun hn => hsub _ (h1 (by simpa using hn)), fun u hu => ?_⟩
        rcases List.mem_cons.mp hu with e | hu
        · cases e
          refine ⟨x, hf, fun y hy => ?_⟩
          by_cases hc : y ∈ m'
          · exact hsub y hc
          · rw [← h]
            exact List.mem_append_left _ (List.mem_filter.mpr ⟨hy, by simpa using hc⟩)
        · obtain ⟨x', hx, hs⟩ := h2 u hu
          exact ⟨x', hx, fun y hy => hsub y (hs y hy)⟩

theorem mem_altAll {a : List (Option Text)} {b : Option (List (Option Text))} {m : List (Option Text)}
    (h : altAll a b = some m) :
    (∀ u, some u ∈ a → some u ∈ m) ∧ (none ∈ a → ∃ l, b = some l ∧ ∀ y ∈ l, y ∈ m) := by
  unfold altAll at h
  split at h
  · next hc =>
    cases b with
    | none => cases h
    | some l =>
      have h : a.filter (fun y => y.isSome && !l.contains y) ++ l = m := Option.some.inj h
      refine ⟨fun u hu => ?_, fun _ => ⟨l, rfl, fun y hy => h ▸ List.mem_append_right _ hy⟩⟩
      by_cases hl : some u ∈ l
      · rw [← h]; exact List.mem_append_right _ hl
      · rw [← h]; exact List.mem_append_left _ (List.mem_filter.mpr ⟨hu, by simpa using hl⟩)
  · next hc =>
    cases h
    exact ⟨fun u hu => hu, fun hn => absurd (by simpa using hn) hc⟩

section
variable {σ : Type} (G : Nat → Exp) (S : Sem σ) (K : Nat → Text → Text → Option Bool)

/-- Soundness: the actual result is one of the possible ones. -/
theorem possible (hK : Agrees S K) : ∀ (n : Nat) (e : Exp) (st : Text) (s : σ) (t : Text) (l : List (Option Text)),
    runP G K n e st t = some l → ∃ r, run G S n e st s t = some r ∧ r.rest ∈ l := by
  intro n
  induction n with
  | zero => intro e st s t l h; cases h
  | succ n ih =>
    intro e st s t l h
    cases e with
    | eps => cases h; exact ⟨_, rfl, List.mem_cons_self⟩
    | any => cases t <;> cases h <;> exact ⟨_, rfl, List.mem_cons_self⟩
    | lit x =>
      cases h
      refine ⟨litRes s (matchLit x t), ?_, ?_⟩
      · unfold run; cases matchLit x t <;> rfl
      · cases matchLit x t <;> exact List.mem_cons_self
    | litI x =>
      cases h
      refine ⟨litRes s (matchLitI x t), ?_, ?_⟩
      · unfold run; cases matchLitI x t <;> rfl
      · cases matchLitI x t <;> exact List.mem_cons_self
    | cls c =>
      cases t with
      | nil => cases h; exact ⟨_, rfl, List.mem_cons_self⟩
      | cons x u =>
        have hr : ∃ r, run G S (n + 1) (.cls c) st s (x :: u) = some r ∧
            r.rest = if c.has S.letter S.number x then some u else none := by
          unfold run; dsimp only
          split
          · exact ⟨_, rfl, rfl⟩
          · exact ⟨_, rfl, rfl⟩
        obtain ⟨r, hr, e⟩ := hr
        refine ⟨r, hr, ?_⟩
        have h : (match c.has3 x with
          | none => some [none, some u]
          | some true => some [some u]
          | some false => some [none]) = some l := h
        rw [e]
        unfold Cls.has3 at h
        split at h
        · next hx =>
          split at hx
          · cases h; split <;> simp
          · cases hx
        · next hx =>
          split at hx
          · cases hx
          · next hc =>
            have hq : c.has S.letter S.number x = true := by
              rw [← Option.some.inj hx]
              simp only [Bool.and_eq_true, Bool.or_eq_true, decide_eq_true_eq, not_and, Nat.not_le] at hc
              unfold Cls.has
              cases hl : c.letters <;> cases hn : c.numbers <;> simp [hl, hn] at hc ⊢
              · rw [hK.number x hc]
              · rw [hK.letter x hc]
              · rw [hK.number x hc, hK.letter x hc]
            cases h; rw [hq]; simp
        · next hx =>
          split at hx
          · cases hx
          · next hc =>
            have hq : c.has S.letter S.number x = false := by
              rw [← Option.some.inj hx]
              simp only [Bool.and_eq_true, Bool.or_eq_true, decide_eq_true_eq, not_and, Nat.not_le] at hc
              unfold Cls.has
              cases hl : c.letters <;> cases hn : c.numbers <;> simp [hl, hn] at hc ⊢
              · rw [hK.number x hc]
              · rw [hK.letter x hc]
              · rw [hK.number x hc, hK.letter x hc]
            cases h; rw [hq]; simp
    | pred id =>
      have hr : ∃ r, run G S (n + 1) (.pred id) st s t = some r ∧
          r.rest = if (S.pred id s st t).1 then some t else none := by
        unfold run
        rcases S.pred id s st t with ⟨b, s'⟩
        cases b <;> exact ⟨_, rfl, rfl⟩
      obtain ⟨r, hr, e⟩ := hr
      refine ⟨r, hr, ?_⟩
      have h : (match K id st t with
        | none => some [none, some t]
        | some true => some [some t]
        | some false => some [none]) = some l := h
      rw [e]
      cases hk : K id st t with
      | none => rw [hk] at h; cases h; split <;> simp
      | some b =>
        rw [hk] at h
        rw [hK.pred id s st t b hk]
        cases b <;> cases h <;> simp
    | state id => cases h; exact ⟨_, rfl, List.mem_cons_self⟩
    | rule i => exact ih (G i) t s t l h
    | seq a b =>
      unfold runP at h
      cases ha : runP G K n a st t with
      | none => rw [ha] at h; cases h
      | some la =>
        rw [ha] at h
        obtain ⟨ra, hra, hm⟩ := ih a st s t la ha
        obtain ⟨h1, h2⟩ := mem_bindAll h
        unfold run
        rw [hra]
        cases ra with
        | fail s1 => exact ⟨_, rfl, h1 hm⟩
        | ok s1 u =>
          obtain ⟨x, hx, hs⟩ := h2 u hm
          obtain ⟨r, hr, hmem⟩ := ih b st s1 u x hx
          exact ⟨r, hr, hs _ hmem⟩
    | alt a b =>
      unfold runP at h
      cases ha : runP G K n a st t with
      | none => rw [ha] at h; cases h
      | some la =>
        rw [ha] at h
        obtain ⟨ra, hra, hm⟩ := ih a st s t la ha
        obtain ⟨h1, h2⟩ := mem_altAll h
        unfold run
        rw [hra]
        cases ra with
        | fail s1 =>
          obtain ⟨x, hx, hs⟩ := h2 hm
          obtain ⟨r, hr, hmem⟩ := ih b st _ t x hx
          exact ⟨r, hr, hs _ hmem⟩
        | ok s1 u => exact ⟨_, rfl, h1 u hm⟩
    | star e =>
      unfold runP at h
      cases ha : runP G K n e st t with
      | none => rw [ha] at h; cases h
      | some la =>
        rw [ha] at h
        dsimp only at h
        obtain ⟨ra, hra, hm⟩ := ih e st s t la ha
        cases hb : bindAll (fun u => runP G K n (.star e) st u) (la.filter Option.isSome) with
        | none => rw [hb] at h; cases h
        | some m =>
          rw [hb] at h
          have h : (if la.contains none then some t :: m else m) = l := Option.some.inj h
          obtain ⟨_, h2⟩ := mem_bindAll hb
          unfold run
          rw [hra]
          cases ra with
          | fail s1 =>
            refine ⟨_, rfl, ?_⟩
            have hm : none ∈ la := hm
            rw [← h, if_pos (by simpa using hm)]
            exact List.mem_cons_self
          | ok s1 u =>
            obtain ⟨x, hx, hs⟩ := h2 u (List.mem_filter.mpr ⟨hm, rfl⟩)
            obtain ⟨r, hr, hmem⟩ := ih (.star e) st s1 u x hx
            refine ⟨r, hr, ?_⟩
            rw [← h]
            split
            · exact List.mem_cons_of_mem _ (hs _ hmem)
            · exact hs _ hmem
    | plus e =>
      unfold runP at h
      cases ha : runP G K n e st t with
      | none => rw [ha] at h; cases h
      | some la =>
        rw [ha] at h
        obtain ⟨ra, hra, hm⟩ := ih e st s t la ha
        obtain ⟨h1, h2⟩ := mem_bindAll h
        unfold run
        rw [hra]
        cases ra with
        | fail s1 => exact ⟨_, rfl, h1 hm⟩
        | ok s1 u =>
          obtain ⟨x, hx, hs⟩ := h2 u hm
          obtain ⟨r, hr, hmem⟩ := ih (.star e) st s1 u x hx
          exact ⟨r, hr, hs _ hmem⟩
    | opt e =>
      unfold runP at h
      cases ha : runP G K n e st t with
      | none => rw [ha] at h; cases h
      | some la =>
        rw [ha] at h
        have h : la.map (orSelf t) = l := Option.some.inj h
        obtain ⟨ra, hra, hm⟩ := ih e st s t la ha
        unfold run
        rw [hra]
        cases ra <;> exact ⟨_, rfl, h ▸ List.mem_map.mpr ⟨_, hm, rfl⟩⟩
    | andP e =>
      unfold runP at h
      cases ha : runP G K n e st t with
      | none => rw [ha] at h; cases h
      | some la =>
        rw [ha] at h
        have h : la.map (fun o => o.map (fun _ => t)) = l := Option.some.inj h
        obtain ⟨ra, hra, hm⟩ := ih e st s t la ha
        unfold run
        rw [hra]
        cases ra <;> exact ⟨_, rfl, h ▸ List.mem_map.mpr ⟨_, hm, rfl⟩⟩
    | notP e =>
      unfold runP at h
      cases ha : runP G K n e st t with
      | none => rw [ha] at h; cases h
      | some la =>
        rw [ha] at h
        have h : la.map (fun o => if o.isSome then none else some t) = l := Option.some.inj h
        obtain ⟨ra, hra, hm⟩ := ih e st s t la ha
        unfold run
        rw [hra]
        cases ra <;> exact ⟨_, rfl, h ▸ List.mem_map.mpr ⟨_, hm, rfl⟩⟩
    | act id e =>
      obtain ⟨ra, hra, hm⟩ := ih e st s t l h
      unfold run
      rw [hra]
      cases ra <;> exact ⟨_, rfl, hm⟩
    | scope e =>
      obtain ⟨ra, hra, hm⟩ := ih e t s t l h
      unfold run
      rw [hra]
      cases ra <;> exact ⟨_, rfl, hm⟩

/-- A single possible result. -/
theorem yields_of_possible (hK : Agrees S K) {n : Nat} {e : Exp} {t : Text} {o : Option Text}
    (h : ∀ st, runP G K n e st t = some [o]) : Yields G S e t o := by
  intro st s r hr
  obtain ⟨r', hr', hm⟩ := possible G S K hK n e st s t [o] (h st)
  rw [hr.det ⟨n, hr'⟩]
  exact List.mem_singleton.mp hm

end
end Peg
end Verif
