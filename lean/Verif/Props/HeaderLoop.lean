import Verif.Props.HeaderParse

/-!
# C66, continued — Documents with a header are split into it and the items after it
-/
namespace Verif
namespace C66
open Peg Grammar Actions FragmentLoop Headed
open C59 (Code Cut alnum)
open C49 (LenCode)
open C63 (Place outside element written trimmed)
open Sectioned (Item)
open Walk (Any)

variable {σ : Type} {S : Sem σ} {A : Peg.Code σ} {len : σ → Nat} {allowed within : σ → Bool}

/-- What is assumed of the code of the grammar: `allowed s` — a header may come (the value of `document_header` in the store that is not restored,
document_processing_parse_fragments.go:90-106) — is only changed when a fragment is complete (parser.peg:257), and `DocumentHeader` (parser.peg:1100) checks it;
`DocumentAuthor` (parser.peg:1129) wants a name or an address. -/
structure HeadCode (S : Sem σ) (allowed within : σ → Bool) : Prop where
  author : AuthorCode S
  top : ∀ s st t, (S.pred 176 s st t).1 = (allowed s && !within s)
  pred_ : ∀ id s st t, allowed (S.pred id s st t).2 = allowed s
  state_ : ∀ id s st t, allowed (S.state id s st t) = allowed s
  act_ : ∀ id s t u, id ≠ 48 → allowed (S.act id s t u) = allowed s
  restore_ : ∀ a b, allowed a = allowed b → allowed (S.restore a b) = allowed a

/-- Rules that are not for fragments. -/
def inner (i : Nat) : Bool := i != R.DelimitedBlockElements && i != R.DocumentFragment

theorem inner_quiet : ∀ i, inner i = true → quiet [48, 50] inner (grammar i) = true := by
  have h : (List.range 338).all (fun i => !inner i || quiet [48, 50] inner (grammar i)) = true := by decide +kernel
  intro i hi
  by_cases hlt : i < 338
  · have := List.all_eq_true.mp h i (List.mem_range.mpr hlt)
    rcases Bool.or_eq_true_iff.1 this with h | h
    · rw [hi] at h; cases h
    · exact h
  · rw [grammar_none (by omega)]; rfl

/-- The expression of the rule for fragments, without its action. -/
theorem fragment_quiet : ∃ e, grammar R.DocumentFragment = .act 48 e ∧ quiet [48, 50] inner e = true := ⟨_, rfl, by decide +kernel⟩

/-- The semantics where headers are allowed. -/
abbrev heading (S : Sem σ) : Sem σ := (outside S).answer 176 true

theorem heading_run (hP : Place S within) (hH : HeadCode S allowed within) {n : Nat} {s : σ} {st t : Text} (hs : within s = false) (ha : allowed s = true) :
    runV grammar (heading S) A n (.rule R.DocumentFragment) st s t = runV grammar S A n (.rule R.DocumentFragment) st s t := by
  rw [← C63.outside_run hP hs]
  obtain ⟨e, he, hq⟩ := fragment_quiet
  cases n with
  | zero => rfl
  | succ n =>
    show runV grammar (heading S) A n (grammar R.DocumentFragment) t s t = runV grammar (outside S) A n (grammar R.DocumentFragment) t s t
    rw [he]
    cases n with
    | zero => rfl
    | succ n =>
      have key := answer_run (A := A) (G := grammar) (S := outside S) 176 true (fun s => (allowed s, within s)) (true, false) (fun s st t h => by
          obtain ⟨h1, h2⟩ := Prod.mk.inj h
          rw [answer_other (by decide), hH.top, h1, h2]
          rfl) [48, 50] inner inner_quiet
        (fun id s st t _ => by rw [answer_state]; exact Prod.ext (hH.pred_ id s st t) (hP.pred_ id s st t))
        (fun id s st t h => Prod.ext (hH.state_ id s st t) (hP.state_ id s st t (by simp only [List.mem_cons, List.not_mem_nil, or_false, not_or] at h; exact h.2)))
        (fun id s t u h => Prod.ext (hH.act_ id s t u (by simp only [List.mem_cons, List.not_mem_nil, or_false, not_or] at h; exact h.1)) (hP.act_ id s t u))
        (fun a b h => by
          obtain ⟨h1, h2⟩ := Prod.mk.inj h
          exact Prod.ext (hH.restore_ a b h1) (hP.restore_ a b h2)) n e t s t hq (by rw [ha, hs])
      unfold runV
      rw [key]
      rfl

theorem heading_code (hS : Code S) : Code (heading S) where
  fragment s st t := by rw [answer_other (by decide)]; exact (C63.outside_code hS).fragment s st t
  visible s p t := by rw [answer_other (by decide)]; exact (C63.outside_code hS).visible s p t
  others id hid s st t := by
    rw [answer_other (by rintro rfl; revert hid; decide)]
    exact (C63.outside_code hS).others id hid s st t
  label s l z r h1 h2 h3 h4 := by rw [answer_other (by decide)]; exact (C63.outside_code hS).label s l z r h1 h2 h3 h4
  ascii := hS.ascii

theorem heading_author (hH : HeadCode S allowed within) : AuthorCode (heading S) := fun s st t => by
  rw [answer_other (by decide), answer_other (by decide)]
  exact hH.author s st t

/-- **C66** (first part): a document with a header is split into it and the items after it. -/
theorem split_headed (hS : Code S) (hP : Place S within) (hH : HeadCode S allowed within) (hI : C64.ListCode S) (hL : LenCode S len) (hA : Obeys A) (failed : σ → Bool) {depth rounds : Nat}
    {s : σ} (hs : within s = false) (ha : allowed s = true) {d : Document} {o : OutcomeV} (hd : d.Ok (alnum S)) (h : loopV S A failed depth rounds s (joinLF d.lines) = some o) :
    o.stop = .reported ∨ o = ⟨[headEl d.head] :: (trimmed d.body).map (fun b => [element b]), .endOfDocument, []⟩ := by
  obtain ⟨z, hz, e, hc⟩ := C63.joined_written d.body
  -- the text of the header and what follows
  obtain ⟨x, hx, hcut, hap⟩ : ∃ x, joinLF d.lines = headText d.head x ∧ Cut x (written z (trimmed d.body)) ∧ Apart (written z (trimmed d.body)) := by
    rcases hd.apart with hb | ⟨w, xs, hb⟩
    · refine ⟨[], ?_, ?_, ?_⟩
      · rw [← headText_eq hd.head, Document.lines, hb]
        simp [Sectioned.lines]
      · rw [← e, hb]; exact .eof
      · rw [← e, hb]; exact ⟨[], [], rfl, (fun _ h => nomatch h), (fun _ h => nomatch h)⟩
    · have hw : ∀ c ∈ w, isBlank c = true := by
        have := hd.body
        rw [hb] at this
        exact this.1
      refine ⟨'\n' :: written z (trimmed d.body), ?_, .line, ?_⟩
      · rw [← headText_eq hd.head, Document.lines, C59.joinLF_append, ← e]
        · exact fun h => nomatch h
        · rw [hb]; exact C63.lines_cons_ne _ _
      · rw [← e, hb]
        show Apart (joinLF (w :: Sectioned.lines xs))
        cases Sectioned.lines xs with
        | nil => exact ⟨w, [], by simp [joinLF], hw, fun _ h => nomatch h⟩
        | cons l ls => exact ⟨w, '\n' :: joinLF (l :: ls), rfl, hw, fun c h => by cases h; decide⟩
  rw [hx] at h
  have hx := header_fragment (heading_code hS) (heading_author hH) (fun s st t => answer_pred s st t) hA hcut hap hd.head (st := headText d.head x)
  obtain ⟨c, t, et⟩ : ∃ c t, headText d.head x = c :: t := ⟨_, _, rfl⟩
  rw [et] at h hx
  cases rounds with
  | zero => cases h
  | succ rounds =>
    unfold loopV at h
    rw [← heading_run hP hH hs ha] at h
    cases hr : runV grammar (heading S) A depth (.rule R.DocumentFragment) (c :: t) s (c :: t) with
    | none => rw [hr] at h; cases h
    | some q =>
      rw [hr] at h
      have hp := hx s q ⟨depth, hr⟩
      rw [heading_run hP hH hs ha] at hr
      cases q with
      | fail s' => cases hp
      | ok s' v u =>
        cases hp
        have hs' := C63.outside_keeps hP hs hr
        dsimp only at h
        split at h
        · cases h; exact .inl rfl
        · split at h
          · next heq => cases heq
          · rw [← C63.outside_loop hP failed rounds s' _ hs'] at h
            cases hl : loopV (outside S) A failed depth rounds s' (written z (trimmed d.body)) with
            | none => rw [hl] at h; cases h
            | some o' =>
              rw [hl] at h
              cases h
              rcases C63.loop_written (C63.outside_code hS) (C63.outside_sect hP) (C63.outside_list hI) (C63.outside_len hL) hA failed hz (C63.trimmed_good hd.body) hc hl with ih | rfl
              · exact .inl ih
              · exact .inr rfl

/-- … when no error is reported. -/
theorem headed_preprocessed (hS : Code S) (hP : Place S within) (hH : HeadCode S allowed within) (hI : C64.ListCode S) (hL : LenCode S len) (hA : Obeys A) {d : Document} (hd : d.Ok (alnum S))
    {s : σ} (hs : within s = false) (ha : allowed s = true) : ∃ depth rounds, loopV S A (fun _ => false) depth rounds s (joinLF d.lines) =
      some ⟨[headEl d.head] :: (trimmed d.body).map (fun b => [element b]), .endOfDocument, []⟩ := by
  obtain ⟨depth, rounds, o, h⟩ := C59.loopV_ends (A := A) hS.progress (fun _ => false) s (joinLF d.lines)
  refine ⟨depth, rounds, ?_⟩
  rcases split_headed hS hP hH hI hL hA _ hs ha hd h with h' | rfl
  · exact absurd h' (C59.never_reported _ _ _ _ h)
  · exact h

end C66
end Verif
