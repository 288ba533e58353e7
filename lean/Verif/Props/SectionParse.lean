import Verif.Props.Heading
import Verif.Props.ListEnd
import Verif.Proofs.Agrees

/-!
# C63, continued — Documents with sections are split into these
-/
namespace Verif
namespace C63
open Peg Grammar Actions FragmentLoop Sectioned
open C59 (Code Cut alnum)
open C49 (LenCode)
open C62 (fence_cons joinLF_delimited)
open Composed (Block)
open Walk (Any)

variable {σ : Type} {S : Sem σ} {A : Peg.Code σ} {len : σ → Nat} {z r : Text}

/-- What the parser makes of an item. -/
def element : Item → Any
  | .block b => C62.element b
  | .heading h => .section h.level [] [.str h.title]
  | .list n ns => C64.listEl (Listed.entries (n :: ns))

theorem element_single (x : Item) : elementsOf (element x) = [element x] := by
  cases x with
  | block b => exact C62.element_single b
  | heading h => rfl
  | list n ns => rfl

/-- The document, with `z` at the end of the last line. -/
def written (z : Text) : List Item → Text
  | [] => []
  | [x] => joinLF x.lines ++ z
  | x :: xs => joinLF x.lines ++ '\n' :: written z xs

/-- The last line is not blank, or has an end. -/
def Closed (z : Text) (xs : List Item) : Prop := z = [] → xs.getLast? ≠ some (.block (.blank []))

theorem closed_tail {x : Item} {xs : List Item} (h : Closed z (x :: xs)) : Closed z xs := by
  cases xs with
  | nil => exact fun _ h => nomatch h
  | cons b' bs => exact fun hz hl => h hz (by rw [List.getLast?_cons_cons]; exact hl)

theorem written_cons (hz : Cut z []) (x : Item) (xs : List Item) (hc : Closed z (x :: xs)) : ∃ z', Cut z' (written z xs) ∧
    written z (x :: xs) = joinLF x.lines ++ z' ∧ (x = .block (.blank []) → z' ≠ []) := by
  cases xs with
  | nil => exact ⟨z, hz, rfl, fun hb h => hc h (by rw [hb]; rfl)⟩
  | cons b' bs => exact ⟨_, .line, rfl, fun _ h => nomatch h⟩

/-- What follows a paragraph ends it. -/
theorem never_more (hS : Code S) (hz : Cut z []) {l : Paragraphs.Line} {ls : List Paragraphs.Line} : ∀ {xs : List Item}, Good (alnum S) xs → Closed z xs →
    Separate (.block (.para l ls)) xs → Never grammar S C59.others (written z xs)
  | [], _, _, _ => C59.never_others (.inl rfl)
  | .heading _ :: _, _, _, h => h.elim
  | .list _ _ :: _, _, _, h => h.elim
  | .block (.blank w) :: xs, h, hc, _ => by
    obtain ⟨z', hz', e, hn⟩ := written_cons hz _ xs hc
    refine C59.never_others (.inr ⟨w, z', _, e, hz', ?_, h.1⟩)
    rw [e]
    cases w with
    | nil => exact hn rfl
    | cons c w => exact fun h => nomatch h
  | .block (.para _ _) :: _, _, _, h => h.elim
  | .block (.verb k f ls) :: xs, h, hc, _ => by
    obtain ⟨z', hz', e, hn⟩ := written_cons hz _ xs hc
    rw [e, Item.lines, Block.lines, joinLF_delimited, List.append_assoc, List.cons_append]
    exact C62.ends_paragraph hS (k := k.least) (by cases k <;> decide) h.1.1 h.1.2.1.1
  | .block (.comp k f bs') :: xs, h, hc, hs => by
    obtain ⟨z', hz', e, hn⟩ := written_cons hz _ xs hc
    rw [e, Item.lines, Block.lines, joinLF_delimited, List.append_assoc, List.cons_append]
    cases k with
    | open_ => exact hs.elim
    | _ => exact C62.ends_paragraph hS (k := 4) (by decide) h.1.1 h.1.2.1.1

theorem line_inline {h : Heading} (hh : h.Ok) : ∀ c ∈ h.line, isEol c = false := by
  intro c hc
  rcases List.mem_append.mp hc with hc | hc
  · rw [(List.mem_replicate.mp hc).2]; rfl
  · rcases List.mem_append.mp hc with hc | hc
    · exact C62.blank_inline (hh.gap c hc)
    · rcases List.mem_append.mp hc with hc | hc
      · exact hh.one c hc
      · rw [hh.trail c hc]; rfl

/-- What follows blank lines after a list does not belong to it. -/
theorem ends_rest (hS : Code S) (hz : Cut z []) : ∀ {xs : List Item}, Good (alnum S) xs → Closed z xs → Ends xs →
    ∃ x, C64.Solid x ∧ C64.NoItem x ∧ Never grammar S (.rule R.ListContinuationMarker) x ∧ C64.Blanks x (written z xs)
  | [], _, _, _ => ⟨[], .inl rfl, C64.noItem_nil, yields_rule (yields_scope (never_seq (C64.no_lit rfl))), .done⟩
  | .block (.blank w) :: xs, h, hc, he => by
    obtain ⟨x, h1, h2, h3, h4⟩ := ends_rest hS hz (xs := xs) h.2.2 (closed_tail hc) he
    obtain ⟨z', hz', e, hn⟩ := written_cons hz _ xs hc
    refine ⟨x, h1, h2, h3, ?_⟩
    rw [e]
    refine .line h.1 hz' ?_ h4
    intro h0
    obtain ⟨rfl, rfl⟩ := List.append_eq_nil_iff.mp h0
    exact hn rfl rfl
  | .block (.para l ls) :: xs, h, hc, he => by
    obtain ⟨z', hz', e, hn⟩ := written_cons hz _ xs hc
    obtain ⟨z2, hz2, e2, _⟩ := C64.tail_cons hz' l.full (ls.map Paragraphs.Line.full)
    have et : written z (.block (.para l ls) :: xs) = l.full ++ z2 := e.trans e2
    obtain ⟨hl, ho, _⟩ := (show l.Ok ∧ Paragraphs.Opens (alnum S) l ∧ _ from h.1)
    obtain ⟨c, y, ey, ha, _⟩ := ho.first
    obtain ⟨h1, h2, _, d, q, e3, hd⟩ := C64.noItem_line hS hz2 (l := l.full) (w := []) ey (fun _ h => nomatch h) ha (by rw [← ey]; exact he) hl.one ho.noLabel
    refine ⟨_, h2, h1, ?_, et ▸ .done⟩
    rw [e3]
    exact starts_never (F := ['+']) (fun h => hd (by rw [List.mem_singleton.mp h]; decide)) 24 _ (by decide)
  | .block (.verb k f ls) :: xs, h, hc, _ => by
    obtain ⟨z', hz', e, hn⟩ := written_cons hz _ xs hc
    rw [Item.lines, Block.lines, joinLF_delimited, List.append_assoc, List.cons_append] at e
    have hk : k.mark ∈ C64.fences ∧ 2 ≤ f.n := ⟨by cases k <;> decide, Nat.le_trans (by cases k <;> decide) h.1.1⟩
    rw [e]
    refine ⟨_, ?_, ?_, ?_, .done⟩
    · exact C64.fence_solid hk.1 (by omega)
    · exact C64.fence_noItem hk.1 (by omega) h.1.2.1.1
    · exact C64.fence_marker hS hk.2
  | .block (.comp k f bs') :: xs, h, hc, hs => by
    obtain ⟨z', hz', e, hn⟩ := written_cons hz _ xs hc
    rw [Item.lines, Block.lines, joinLF_delimited, List.append_assoc, List.cons_append] at e
    have hk : k.mark ∈ C64.fences ∧ 2 ≤ f.n := by
      refine ⟨by cases k <;> decide, ?_⟩
      have := h.1.1
      unfold Composed.Compound.Length at this
      split at this <;> omega
    rw [e]
    refine ⟨_, ?_, ?_, ?_, .done⟩
    · exact C64.fence_solid hk.1 (by omega)
    · exact C64.fence_noItem hk.1 (by omega) h.1.2.1.1
    · exact C64.fence_marker hS hk.2
  | .heading hd :: xs, h, hc, he => by
    obtain ⟨z', hz', e, hn⟩ := written_cons hz _ xs hc
    have hi : ∀ c ∈ hd.line, isEol c = false := line_inline h.1
    have h0 : hd.line.head? = some '=' := rfl
    obtain ⟨h1, h2⟩ := C64.equals_noItem hz' hi he h0
    have et : written z (.heading hd :: xs) = hd.line ++ z' := e
    refine ⟨_, h2, h1, ?_, et ▸ .done⟩
    exact starts_never (c := '=') (F := ['+']) (by decide) 24 _ (by decide)
  | .list _ _ :: _, _, _, he => he.elim

/-- What follows a list ends it. -/
theorem never_extra (hS : Code S) (hC : C64.ListCode S) (hz : Cut z []) {n : Listed.Node} {ns : List Listed.Node} : ∀ {xs : List Item}, Good (alnum S) xs → Closed z xs →
    Separate (.list n ns) xs → Never grammar S (.rule R.ExtraListElement) (written z xs)
  | [], _, _, _ => C64.never_extra_nil
  | .heading _ :: _, _, _, h => h.elim
  | .list _ _ :: _, _, _, h => h.elim
  | .block (.blank w) :: xs, h, hc, he => by
    obtain ⟨x, h1, h2, h3, h4⟩ := ends_rest hS hz (xs := xs) h.2.2 (closed_tail hc) he
    obtain ⟨z', hz', e, hn⟩ := written_cons hz _ xs hc
    rw [e]
    refine C64.never_extra hC h1 h2 h3 h.1 hz' ?_ h4
    intro h0
    obtain ⟨rfl, rfl⟩ := List.append_eq_nil_iff.mp h0
    exact hn rfl rfl
  | .block (.para _ _) :: _, _, _, h => h.elim
  | .block (.verb k f ls) :: xs, h, hc, _ => by
    obtain ⟨z', hz', e, hn⟩ := written_cons hz _ xs hc
    rw [e, Item.lines, Block.lines, joinLF_delimited, List.append_assoc, List.cons_append]
    exact C64.fence_ends hS hC (k := k.least) (by cases k <;> decide) h.1.1 h.1.2.1.1
  | .block (.comp k f bs') :: xs, h, hc, hs => by
    obtain ⟨z', hz', e, hn⟩ := written_cons hz _ xs hc
    rw [e, Item.lines, Block.lines, joinLF_delimited, List.append_assoc, List.cons_append]
    cases k with
    | open_ => exact hs.elim
    | _ => exact C64.fence_ends hS hC (k := 4) (by decide) h.1.1 h.1.2.1.1

theorem entries_cons (e : Listed.Entry) (below ns : List Listed.Node) : Listed.entries (.node e below :: ns) = e :: (Listed.entries below ++ Listed.entries ns) := by
  rw [Listed.entries, Listed.Node.entries, List.cons_append]

/-- One fragment for each item. -/
theorem fragment (hS : Code S) (hC : SectCode S) (hI : C64.ListCode S) (hL : LenCode S len) (hA : Obeys A) (hz : Cut z []) {x : Item} {xs : List Item} (h : Good (alnum S) (x :: xs))
    (hc : Closed z (x :: xs)) {st : Text} :
    Exactly grammar S A st (.rule R.DocumentFragment) (written z (x :: xs)) [element x] (written z xs) := by
  obtain ⟨z', hz', e, hn⟩ := written_cons hz _ xs hc
  rw [e]
  cases x with
  | block b =>
    exact C62.fragment_one hS hL hA hz' h.1 (fun hb => hn (by rw [hb])) (fun l ls hb => never_more hS hz h.2.2 (closed_tail hc) (hb ▸ h.2.1))
  | heading x => exact heading_fragment hS hC hA hz' h.1
  | list n ns =>
    obtain ⟨hi, _, ⟨en, below, rest, en', hsk, hsh⟩⟩ := (show Listed.Ok (alnum S) (n :: ns) from h.1)
    obtain ⟨rfl, rfl⟩ := List.cons.inj en'
    have hr := never_extra hS hI hz h.2.2 (closed_tail hc) h.2.1
    rw [entries_cons] at hi
    have := C64.list_fragment (st := st) hS hI hA hz' hr hi hsk hsh
    rw [← entries_cons] at this
    have he : joinLF (Item.lines (.list (.node en below) ns)) ++ z' = C64.tail z' (written z xs) ((Listed.entries (.node en below :: ns)).flatMap Listed.Entry.lines) := by
      rw [entries_cons, List.flatMap_cons, Listed.Entry.lines, hsk, List.nil_append, List.cons_append, Item.lines, Listed.lines, entries_cons, List.flatMap_cons, Listed.Entry.lines, hsk,
        List.nil_append, List.cons_append]
      rfl
    rw [he]
    exact this

theorem written_some (hz : Cut z []) {alnum : Char → Bool} {x : Item} {xs : List Item} (h : Good alnum (x :: xs)) (hc : Closed z (x :: xs)) : ∃ c t, written z (x :: xs) = c :: t := by
  obtain ⟨z', hz', e, hn⟩ := written_cons hz _ xs hc
  rw [e]
  have key : ∀ t : Text, t ≠ [] → ∃ c u, t = c :: u := by
    intro t ht
    cases t with
    | nil => exact absurd rfl ht
    | cons c u => exact ⟨c, u, rfl⟩
  refine key _ ?_
  intro he
  obtain ⟨h1, h2⟩ := List.append_eq_nil_iff.mp he
  cases x with
  | heading x =>
    have : x.line = [] := h1
    simp [Heading.line] at this
  | list n ns =>
    obtain ⟨hi, _, ⟨en, below, rest, en', hsk, hsh⟩⟩ := (show Listed.Ok alnum (n :: ns) from h.1)
    obtain ⟨rfl, rfl⟩ := List.cons.inj en'
    rw [Item.lines, Listed.lines, entries_cons, List.flatMap_cons, Listed.Entry.lines, hsk, List.nil_append, List.cons_append] at h1
    rw [entries_cons] at hi
    obtain ⟨c, y, e2, _⟩ := C64.mark_head (hi en List.mem_cons_self).mark
    cases hq : (en.more.map Paragraphs.Line.full ++ (Listed.entries below ++ Listed.entries ns).flatMap Listed.Entry.lines) <;>
      · rw [hq] at h1
        simp [joinLF, Listed.Entry.line, e2] at h1
  | block b =>
    cases b with
    | blank w =>
      have : w = [] := h1
      subst this
      exact hn rfl h2
    | para l ls =>
      obtain ⟨c, x, hx, _⟩ := h.1.2.1.first
      cases ls <;> simp [Item.lines, Block.lines, joinLF, hx] at h1
    | verb k f ls =>
      rw [Item.lines, Block.lines, joinLF_delimited] at h1
      simp at h1
    | comp k f ls =>
      rw [Item.lines, Block.lines, joinLF_delimited] at h1
      simp at h1

theorem loop_written (hS : Code S) (hC : SectCode S) (hI : C64.ListCode S) (hL : LenCode S len) (hA : Obeys A) (failed : σ → Bool) {depth : Nat} (hz : Cut z []) :
    ∀ {rounds : Nat} {s : σ} {xs : List Item} {o : OutcomeV}, Good (alnum S) xs → Closed z xs →
      loopV S A failed depth rounds s (written z xs) = some o →
      o.stop = .reported ∨ o = ⟨xs.map (fun b => [element b]), .endOfDocument, []⟩
  | 0, _, _, _, _, _, h => nomatch h
  | _ + 1, _, [], o, _, _, h => by cases h; exact .inr rfl
  | rounds + 1, s, x :: xs, o, hg, hc, h => by
    have hx := fragment hS hC hI hL hA hz hg hc (st := written z (x :: xs))
    have hc' := closed_tail hc
    obtain ⟨c, t, e⟩ := written_some hz hg hc
    rw [e] at h hx
    unfold loopV at h
    cases hr : runV grammar S A depth (.rule R.DocumentFragment) (c :: t) s (c :: t) with
    | none => rw [hr] at h; cases h
    | some q =>
      rw [hr] at h
      have hp := hx s q ⟨depth, hr⟩
      cases q with
      | fail s' => cases hp
      | ok s' v u =>
        cases hp
        dsimp only at h
        split at h
        · cases h; exact .inl rfl
        · split at h
          · next heq => cases x with
            | heading _ => cases heq
            | list _ _ => cases heq
            | block b => cases b <;> cases heq
          · cases hl : loopV S A failed depth rounds s' (written z xs) with
            | none => rw [hl] at h; cases h
            | some o' =>
              rw [hl] at h
              cases h
              rcases loop_written hS hC hI hL hA failed hz hg.2.2 hc' hl with ih | rfl
              · exact .inl ih
              · refine .inr ?_
                rw [List.flatMap_cons, List.flatMap_nil, element_single]
                rfl

theorem lines_ne (x : Item) : x.lines ≠ [] := by
  cases x with
  | block b => exact C62.lines_ne b
  | heading _ => exact fun h => nomatch h
  | list n ns =>
    obtain ⟨e, below⟩ := n
    intro h
    rw [Item.lines, Listed.lines, entries_cons, List.flatMap_cons, Listed.Entry.lines] at h
    simp at h

theorem lines_cons_ne (x : Item) (xs : List Item) : lines (x :: xs) ≠ [] := by
  intro h
  exact lines_ne x (List.append_eq_nil_iff.mp (show x.lines ++ lines xs = [] from h)).1

theorem written_eq (z : Text) : ∀ (xs : List Item), xs ≠ [] → written z xs = joinLF (lines xs) ++ z
  | [], h => absurd rfl h
  | [b], _ => by
    show _ = joinLF (b.lines ++ []) ++ z
    rw [List.append_nil]
    rfl
  | b :: b' :: bs, _ => by
    have ih := written_eq z (b' :: bs) (fun h => nomatch h)
    show joinLF b.lines ++ '\n' :: written z (b' :: bs) = joinLF (b.lines ++ lines (b' :: bs)) ++ z
    rw [ih, C59.joinLF_append _ _ (lines_ne b) (lines_cons_ne b' bs)]
    simp

theorem written_source (xs : List Item) : written ['\n'] xs = source xs := by
  cases xs with
  | nil => rfl
  | cons b bs => rw [written_eq _ (b :: bs) (fun h => nomatch h)]; exact (C59.unlines_joinLF _ (lines_cons_ne b bs)).symm

theorem ends_dropLast : ∀ {xs : List Item}, Ends xs → Ends xs.dropLast
  | [], h => h
  | [_], _ => trivial
  | .block (.blank _) :: y :: xs, h => ends_dropLast (xs := y :: xs) h
  | .block (.para _ _) :: _ :: _, h => h
  | .block (.verb _ _ _) :: _ :: _, h => h
  | .block (.comp _ _ _) :: _ :: _, h => h
  | .heading _ :: _ :: _, h => h
  | .list _ _ :: _ :: _, h => h

theorem separate_dropLast {x y : Item} {xs : List Item} (h : Separate x (y :: xs)) : Separate x (y :: xs).dropLast := by
  cases xs with
  | nil =>
    cases x with
    | heading _ => trivial
    | list _ _ => trivial
    | block b => cases b <;> trivial
  | cons b2 bs =>
    show Separate x (y :: (b2 :: bs).dropLast)
    cases x with
    | heading _ => trivial
    | list _ _ =>
      cases y with
      | heading _ => exact h
      | list _ _ => exact h
      | block b' =>
        cases b' with
        | blank w => exact ends_dropLast (xs := b2 :: bs) h
        | comp k f x => cases k <;> exact h
        | _ => exact h
    | block b =>
      cases b with
      | para l ls =>
        cases y with
        | heading _ => exact h
        | list _ _ => exact h
        | block b' =>
          cases b' with
          | para _ _ => exact h
          | comp k f x => cases k <;> exact h
          | _ => trivial
      | _ => trivial

theorem good_dropLast {alnum : Char → Bool} : ∀ {xs : List Item}, Good alnum xs → Good alnum xs.dropLast
  | [], h => h
  | [_], _ => trivial
  | _ :: b :: bs, h => ⟨h.1, separate_dropLast h.2.1, good_dropLast (xs := b :: bs) h.2.2⟩

/-- The document without the empty line at its end. -/
def trimmed (xs : List Item) : List Item :=
  match xs.getLast? with
  | some (.block (.blank [])) => xs.dropLast
  | _ => xs

theorem trimmed_good {alnum : Char → Bool} {xs : List Item} (h : Good alnum xs) : Good alnum (trimmed xs) := by
  unfold trimmed
  split
  · exact good_dropLast h
  · exact h

theorem lines_append (xs ys : List Item) : lines (xs ++ ys) = lines xs ++ lines ys := List.flatMap_append

theorem joined_written (xs : List Item) : ∃ z, Cut z [] ∧ joinLF (lines xs) = written z (trimmed xs) ∧ Closed z (trimmed xs) := by
  unfold trimmed
  split
  · next h =>
    obtain ⟨as, rfl⟩ : ∃ as, xs = as ++ [.block (.blank [])] := ⟨xs.dropLast, by
      have hne : xs ≠ [] := by rintro rfl; cases h
      have := List.dropLast_concat_getLast hne
      rw [List.getLast?_eq_some_getLast hne] at h
      rw [Option.some.inj h] at this
      exact this.symm⟩
    rw [List.dropLast_concat]
    refine ⟨['\n'], .line, ?_, fun h => nomatch h⟩
    cases as with
    | nil => rfl
    | cons b as =>
      rw [written_eq _ (b :: as) (fun h => nomatch h)]
      have : lines (b :: as ++ [.block (.blank [])]) = lines (b :: as) ++ [[]] := lines_append (b :: as) [.block (.blank [])]
      rw [this, C59.joinLF_append _ [[]] (lines_cons_ne b as) (fun h => nomatch h)]
      rfl
  · next h =>
    refine ⟨[], .eof, ?_, fun _ hl => h hl⟩
    cases xs with
    | nil => rfl
    | cons b bs => rw [written_eq _ (b :: bs) (fun h => nomatch h), List.append_nil]

/-! ### Outside of delimited blocks -/

/-- What is assumed of the code of the grammar: `within s` — a delimited block is being parsed (parser_ext.go:230-239) — is only set for the rule for
the content of delimited blocks (parser.peg:277-281), and `Section` (parser.peg:2281-2292) checks it, and the number of equal signs. -/
structure Place (S : Sem σ) (within : σ → Bool) : Prop where
  top : ∀ s st t, (S.pred 361 s st t).1 = !within s
  level : ∀ s k t, t.head? ≠ some '=' → (S.pred 363 s (List.replicate k '=' ++ t) t).1 = decide (k ≤ 6)
  pred_ : ∀ id s st t, within (S.pred id s st t).2 = within s
  state_ : ∀ id s st t, id ≠ 50 → within (S.state id s st t) = within s
  act_ : ∀ id s t u, within (S.act id s t u) = within s
  restore_ : ∀ a b, within a = within b → within (S.restore a b) = within a

/-- Only the rule for the content of delimited blocks says that we are in a delimited block. -/
theorem outside_quiet : ∀ i, (i != R.DelimitedBlockElements) = true → quiet [50] (fun i => i != R.DelimitedBlockElements) (grammar i) = true := by
  have h : (List.range 338).all (fun i => i == R.DelimitedBlockElements || quiet [50] (fun i => i != R.DelimitedBlockElements) (grammar i)) = true := by decide +kernel
  intro i hi
  by_cases hlt : i < 338
  · have := List.all_eq_true.mp h i (List.mem_range.mpr hlt)
    rcases Bool.or_eq_true_iff.1 this with h | h
    · rw [bne, h] at hi; cases hi
    · exact h
  · rw [grammar_none (by omega)]; rfl

/-- The semantics outside of delimited blocks. -/
abbrev outside (S : Sem σ) : Sem σ := S.answer 361 true

variable {within : σ → Bool}

theorem outside_run (hP : Place S within) {n : Nat} {s : σ} {st t : Text} (hs : within s = false) :
    runV grammar (outside S) A n (.rule R.DocumentFragment) st s t = runV grammar S A n (.rule R.DocumentFragment) st s t :=
  answer_run 361 true within false (fun s st t h => by rw [hP.top, h]; rfl) [50] (fun i => i != R.DelimitedBlockElements) outside_quiet (fun id s st t _ => hP.pred_ id s st t)
    (fun id s st t h => hP.state_ id s st t (by simpa using h)) (fun id s t u _ => hP.act_ id s t u) hP.restore_ n _ st s t rfl hs

theorem outside_keeps (hP : Place S within) {n : Nat} {s s' : σ} {st t u : Text} {v : List Any} (hs : within s = false)
    (h : runV grammar S A n (.rule R.DocumentFragment) st s t = some (.ok s' v u)) : within s' = false := by
  have he := runV_erase (G := grammar) (S := S) (A := A) n (.rule R.DocumentFragment) st s t
  rw [h] at he
  have := run_keeps (S := S) within [50] (fun i => i != R.DelimitedBlockElements) outside_quiet (fun id s st t _ => hP.pred_ id s st t)
    (fun id s st t h => hP.state_ id s st t (by simpa using h)) (fun id s t u _ => hP.act_ id s t u) hP.restore_ n _ st s t _ rfl he.symm
  exact this.trans hs

theorem outside_loop (hP : Place S within) (failed : σ → Bool) {depth : Nat} : ∀ (rounds : Nat) (s : σ) (t : Text), within s = false →
    loopV (outside S) A failed depth rounds s t = loopV S A failed depth rounds s t
  | 0, _, _, _ => rfl
  | _ + 1, _, [], _ => rfl
  | rounds + 1, s, c :: t, hs => by
    conv => lhs; unfold loopV
    conv => rhs; unfold loopV
    rw [outside_run hP hs]
    cases hr : runV grammar S A depth (.rule R.DocumentFragment) (c :: t) s (c :: t) with
    | none => rfl
    | some q =>
      cases q with
      | fail s1 => rfl
      | ok s1 v u =>
        dsimp only
        rw [outside_loop hP failed rounds s1 u (outside_keeps hP hs hr)]

theorem outside_code (hS : Code S) : Code (outside S) where
  fragment s st t := by rw [answer_other (by decide)]; exact hS.fragment s st t
  visible s p t := by rw [answer_other (by decide)]; exact hS.visible s p t
  others id hid s st t := by
    rw [answer_other (by rintro rfl; revert hid; decide)]
    exact hS.others id hid s st t
  label s l z r h1 h2 h3 h4 := by rw [answer_other (by decide)]; exact hS.label s l z r h1 h2 h3 h4
  ascii := hS.ascii

theorem outside_len (hL : LenCode S len) : LenCode (outside S) len where
  set x hx s p t := by
    rw [answer_other (by rintro e; revert hx; rw [show x = (x.1, x.2) from rfl, e]; intro hx; simp [C49.setters] at hx)]
    exact hL.set x hx s p t
  same x hx s p t := by
    rw [answer_other (by rintro e; revert hx; rw [show x = (x.1, x.2) from rfl, e]; intro hx; simp [C49.matchers] at hx)]
    exact hL.same x hx s p t
  pred_len id s st t h := by rw [answer_state]; exact hL.pred_len id s st t h
  state_len := hL.state_len
  act_len := hL.act_len
  restore_len := hL.restore_len

theorem outside_list (hI : C64.ListCode S) : C64.ListCode (outside S) where
  dots s k t h := by rw [answer_other (by decide)]; exact hI.dots s k t h
  dash s w t h := by rw [answer_other (by decide)]; exact hI.dash s w t h
  stars s w k t h h' := by rw [answer_other (by decide)]; exact hI.stars s w k t h h'
  colon s t h := by rw [answer_other (by decide)]; exact hI.colon s t h

theorem outside_sect (hP : Place S within) : SectCode (outside S) where
  top s st t := answer_pred s st t
  level s k t h := by rw [answer_other (by decide)]; exact hP.level s k t h

/-- **C63** (first part): a document of sections, paragraphs, lists, blank lines and delimited blocks is split into exactly these. -/
theorem split_into_sections (hS : Code S) (hP : Place S within) (hI : C64.ListCode S) (hL : LenCode S len) (hA : Obeys A) (failed : σ → Bool) {depth rounds : Nat} {s : σ}
    (hs : within s = false) {xs : List Item} {o : OutcomeV} (hg : Good (alnum S) xs) (h : loopV S A failed depth rounds s (source xs) = some o) :
    o.stop = .reported ∨ o = ⟨xs.map (fun b => [element b]), .endOfDocument, []⟩ := by
  rw [← outside_loop hP failed rounds s _ hs] at h
  exact loop_written (outside_code hS) (outside_sect hP) (outside_list hI) (outside_len hL) hA failed .line hg (fun h => nomatch h) (by rw [written_source]; exact h)

/-- The same for the text that preprocessing gives. -/
theorem split_preprocessed (hS : Code S) (hP : Place S within) (hI : C64.ListCode S) (hL : LenCode S len) (hA : Obeys A) (failed : σ → Bool) {depth rounds : Nat} {s : σ}
    (hs : within s = false) {xs : List Item} {o : OutcomeV} (hg : Good (alnum S) xs) (h : loopV S A failed depth rounds s (joinLF (lines xs)) = some o) :
    o.stop = .reported ∨ o = ⟨(trimmed xs).map (fun b => [element b]), .endOfDocument, []⟩ := by
  obtain ⟨z, hz, e, hc⟩ := joined_written xs
  rw [← outside_loop hP failed rounds s _ hs] at h
  exact loop_written (outside_code hS) (outside_sect hP) (outside_list hI) (outside_len hL) hA failed hz (trimmed_good hg) hc (by rw [← e]; exact h)

/-- … when no error is reported. -/
theorem sections_preprocessed (hS : Code S) (hP : Place S within) (hI : C64.ListCode S) (hL : LenCode S len) (hA : Obeys A) {xs : List Item} (hg : Good (alnum S) xs) {s : σ}
    (hs : within s = false) : ∃ depth rounds, loopV S A (fun _ => false) depth rounds s (joinLF (lines xs)) =
      some ⟨(trimmed xs).map (fun b => [element b]), .endOfDocument, []⟩ := by
  obtain ⟨depth, rounds, o, h⟩ := C59.loopV_ends (A := A) hS.progress (fun _ => false) s (joinLF (lines xs))
  refine ⟨depth, rounds, ?_⟩
  rcases split_preprocessed hS hP hI hL hA _ hs hg h with h' | rfl
  · exact absurd h' (C59.never_reported _ _ _ _ h)
  · exact h

end C63
end Verif
