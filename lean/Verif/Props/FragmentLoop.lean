import Verif.Model.FragmentLoop
import Verif.Props.Termination

/-!
# C46 — Splitting a document into fragments ends and loses nothing silently at the end of the document

The loop over the document ends for every document; the fragments are consecutive and not empty; when the loop ends
because the end of the document is reached, they cover the whole document.
-/
namespace Verif
namespace C46
open Peg Grammar FragmentLoop

/-- Consecutive pieces, none empty, from `a` to `b`. -/
def Chain : Nat → List (Nat × Nat) → Nat → Prop
  | a, [], b => a = b
  | a, (x, y) :: l, b => x = a ∧ x < y ∧ Chain y l b

variable {σ : Type}

/-- A document fragment takes at least one character. -/
theorem fragment_consumes (S : Sem σ) (hS : C45.ChecksProgress S) {n : Nat} {s s' : σ} {st t u : Text}
    (h : run grammar S n (.rule R.DocumentFragment) st s t = some (.ok s' u)) : u.length < t.length ∧ u <:+ t := by
  have f := fact cert grammar S valid.toSound hS n _ _ _ _ _ h
  have hs := f.suffix u rfl
  refine ⟨?_, hs⟩
  rcases Nat.lt_or_ge u.length t.length with hl | hl
  · exact hl
  · have e' : u = t := eq_of_suffix_length hs hl
    by_cases h0 : t = []
    · exact absurd (f.may0 h0 rfl) (by decide +kernel)
    · exact absurd (f.may1 h0 (by rw [e']; rfl)) (by decide +kernel)

/-- More depth and more rounds do not change the outcome. -/
theorem loop_le (S : Sem σ) (failed nilValue : σ → Bool) {d d' : Nat} (hd : d ≤ d') :
    ∀ {r r' : Nat}, r ≤ r' → ∀ {a : Nat} {s : σ} {t : Text} {o : Outcome},
      loop S failed nilValue d r a s t = some o → loop S failed nilValue d' r' a s t = some o
  | 0, _, _, _, _, _, _, h => nomatch h
  | r + 1, 0, hr, _, _, _, _, _ => absurd hr (by omega)
  | r + 1, r' + 1, hr, a, s, [], o, h => h
  | r + 1, r' + 1, hr, a, s, c :: t, o, h => by
    have ih := @loop_le S failed nilValue d d' hd r r' (by omega)
    unfold loop at h ⊢
    cases hrun : run grammar S d (.rule R.DocumentFragment) (c :: t) s (c :: t) with
    | none => rw [hrun] at h; cases h
    | some x =>
      rw [run_le grammar S hd hrun]
      rw [hrun] at h
      cases x with
      | fail s' => exact h
      | ok s' u =>
        dsimp only at h ⊢
        split at h
        · rw [if_pos (by assumption)]; exact h
        · rw [if_neg (by assumption)]
          split at h
          · rw [if_pos (by assumption)]; exact h
          · rw [if_neg (by assumption)]
            cases hl : loop S failed nilValue d r (a + ((c :: t).length - u.length)) s' u with
            | none => rw [hl] at h; cases h
            | some o' =>
              rw [ih hl]
              rw [hl] at h
              exact h

/-- **C46**: the loop ends on every document. -/
theorem fragments_end (S : Sem σ) (hS : C45.ChecksProgress S) (failed nilValue : σ → Bool) (a : Nat) (s : σ) (t : Text) :
    ∃ depth rounds o, loop S failed nilValue depth rounds a s t = some o := by
  induction hl : t.length using Nat.strongRecOn generalizing t a s with
  | ind len ih =>
    cases t with
    | nil => exact ⟨0, 1, _, rfl⟩
    | cons c t =>
      obtain ⟨n, x, hrun, _⟩ := C45.parse_ends S hS R.DocumentFragment s (c :: t)
      cases x with
      | fail s' => exact ⟨n, 1, _, by unfold loop; rw [hrun]⟩
      | ok s' u =>
        by_cases h1 : failed s' = true
        · exact ⟨n, 1, ⟨[], .reported, u⟩, by unfold loop; rw [hrun]; dsimp only; rw [if_pos h1]⟩
        by_cases h2 : nilValue s' = true
        · exact ⟨n, 1, ⟨[], .nilValue, u⟩, by unfold loop; rw [hrun]; dsimp only; rw [if_neg h1, if_pos h2]⟩
        obtain ⟨d, r, o, ho⟩ := ih u.length (hl ▸ (fragment_consumes S hS hrun).1) (a + ((c :: t).length - u.length)) s' u rfl
        refine ⟨max n d, r + 1, { o with fragments := (a, a + ((c :: t).length - u.length)) :: o.fragments }, ?_⟩
        unfold loop
        rw [run_le grammar S (Nat.le_max_left n d) hrun]
        dsimp only
        rw [if_neg h1, if_neg h2, loop_le S failed nilValue (Nat.le_max_right n d) (Nat.le_refl r) ho]

/-- **C46**: the fragments are consecutive, none is empty, they are within the document, and cover all of it when the
loop ends at the end of the document. When a fragment does not match, what is not covered is not empty, and is
the end of the document. -/
theorem fragments_tile (S : Sem σ) (hS : C45.ChecksProgress S) (failed nilValue : σ → Bool) {depth : Nat} :
    ∀ {rounds a : Nat} {s : σ} {t : Text} {o : Outcome}, loop S failed nilValue depth rounds a s t = some o →
      ∃ b, Chain a o.fragments b ∧ b + o.rest.length ≤ a + t.length ∧ o.rest <:+ t ∧
        (o.stop = .endOfDocument → b = a + t.length ∧ o.rest = []) ∧
        (o.stop = .noMatch → b + o.rest.length = a + t.length ∧ o.rest ≠ [])
  | 0, _, _, _, _, h => nomatch h
  | r + 1, a, s, [], o, h => by
    cases h
    exact ⟨a, rfl, Nat.le_refl _, List.suffix_refl _, fun _ => ⟨rfl, rfl⟩, (fun h => nomatch h)⟩
  | r + 1, a, s, c :: t, o, h => by
    unfold loop at h
    cases hrun : run grammar S depth (.rule R.DocumentFragment) (c :: t) s (c :: t) with
    | none => rw [hrun] at h; cases h
    | some x =>
      rw [hrun] at h
      cases x with
      | fail s' =>
        cases h
        exact ⟨a, rfl, Nat.le_refl _, List.suffix_refl _, (fun h => nomatch h), fun _ => ⟨rfl, List.cons_ne_nil _ _⟩⟩
      | ok s' u =>
        have ⟨hlt, hsuf⟩ := fragment_consumes S hS hrun
        dsimp only at h
        split at h
        · cases h
          exact ⟨a, rfl, by dsimp only; omega, hsuf, (fun h => nomatch h), (fun h => nomatch h)⟩
        · split at h
          · cases h
            exact ⟨a, rfl, by dsimp only; omega, hsuf, (fun h => nomatch h), (fun h => nomatch h)⟩
          · cases hl : loop S failed nilValue depth r (a + ((c :: t).length - u.length)) s' u with
            | none => rw [hl] at h; cases h
            | some o' =>
              rw [hl] at h
              cases h
              obtain ⟨b, hc, hle, hs, he, hn⟩ := fragments_tile S hS failed nilValue hl
              refine ⟨b, ⟨rfl, by omega, hc⟩, by dsimp only; omega, hs.trans hsuf, fun hst => ?_, fun hst => ?_⟩
              · obtain ⟨h1, h2⟩ := he hst
                exact ⟨by omega, h2⟩
              · obtain ⟨h1, h2⟩ := hn hst
                exact ⟨by dsimp only at h1 ⊢; omega, h2⟩

end C46
end Verif
