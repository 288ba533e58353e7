import Verif.Model.Merge
/-!
C21: merging inline elements preserves the text. C41: splitting a source block in lines preserves the content.
-/
namespace Verif.C21
open Verif.Merge

/-! ## Specification -/

/-- A unit of content: a character or an element. -/
inductive U where
  | ch (c : Char)
  | dash
  | tok (n : Nat)
deriving DecidableEq, Repr

mutual
/-- The content of a value. -/
def units : MEl → List U
  | .nil => []
  | .raw t => t.map .ch
  | .elem t => t.map .ch
  | .dash => [.dash]
  | .other n => [.tok n]
  | .slice es => unitsAll es
/-- The content of a sequence. -/
def unitsAll : List MEl → List U
  | [] => []
  | e :: es => units e ++ unitsAll es
end

/-- The content without the space directly before each `--`. -/
def trimEach : List U → List U
  | [] => []
  | u :: us => if u = .ch ' ' ∧ us.head? = some .dash then trimEach us else u :: trimEach us

/-- The content without any of the spaces directly before a `--`. -/
def squeeze : List U → List U
  | [] => []
  | u :: us => if u = .ch ' ' ∧ (squeeze us).head? = some .dash then squeeze us else u :: squeeze us

/-- Nothing but string elements and other elements: no nil, no slice, no bare string. -/
def plain : MEl → Bool
  | .elem _ => true
  | .dash => true
  | .other _ => true
  | _ => false

/-- No slice inside. -/
def noSlice : MEl → Bool
  | .slice _ => false
  | _ => true

/-- Whether a value is a string element. -/
def isStr : MEl → Bool
  | .elem _ => true
  | _ => false

/-- Whether there are two string elements in a row. -/
def adjacent : List MEl → Bool
  | a :: b :: es => (isStr a && isStr b) || adjacent (b :: es)
  | _ => false

/-! ## Spaces before dashes -/

theorem trimEach_cons (u : U) (us : List U) : trimEach (u :: us) = if u = .ch ' ' ∧ us.head? = some .dash then trimEach us else u :: trimEach us := rfl

theorem squeeze_cons (u : U) (us : List U) : squeeze (u :: us) = if u = .ch ' ' ∧ (squeeze us).head? = some .dash then squeeze us else u :: squeeze us := rfl

theorem squeeze_dash (us : List U) : squeeze (.dash :: us) = .dash :: squeeze us := by
  rw [squeeze_cons, if_neg (by simp)]

theorem trimEach_head_dash (us : List U) (h : us.head? = some .dash) : (trimEach us).head? = some .dash := by
  cases us with
  | nil => simp at h
  | cons u us =>
    simp only [List.head?_cons, Option.some.injEq] at h
    subst h
    rw [trimEach_cons, if_neg (by simp)]; rfl

theorem squeeze_head_dash (us : List U) (h : us.head? = some .dash) : (squeeze us).head? = some .dash := by
  cases us with
  | nil => simp at h
  | cons u us =>
    simp only [List.head?_cons, Option.some.injEq] at h
    subst h
    rw [squeeze_dash]; rfl

theorem squeeze_trimEach : ∀ us, squeeze (trimEach us) = squeeze us
  | [] => rfl
  | u :: us => by
    have ih := squeeze_trimEach us
    rw [trimEach_cons, squeeze_cons]
    split
    · rename_i h
      rw [ih, if_pos ⟨h.1, squeeze_head_dash us h.2⟩]
    · rw [squeeze_cons, ih]

theorem squeeze_append_right (b c : List U) (h : squeeze b = squeeze c) : ∀ a, squeeze (a ++ b) = squeeze (a ++ c)
  | [] => h
  | u :: us => by
    rw [List.cons_append, List.cons_append, squeeze_cons, squeeze_cons, squeeze_append_right b c h us]

theorem squeeze_squeeze_append (y : List U) : ∀ x, squeeze (squeeze x ++ y) = squeeze (x ++ y)
  | [] => rfl
  | u :: us => by
    have ih := squeeze_squeeze_append y us
    rw [squeeze_cons, List.cons_append, squeeze_cons u (us ++ y)]
    split
    · rename_i h
      rw [ih, if_pos]
      refine ⟨h.1, ?_⟩
      rw [← ih]
      apply squeeze_head_dash
      cases hs : squeeze us with
      | nil => rw [hs] at h; simp at h
      | cons v vs => rw [hs] at h; exact h.2
    · rw [List.cons_append, squeeze_cons, ih]

theorem squeeze_append_left (a b c : List U) (h : squeeze a = squeeze b) : squeeze (a ++ c) = squeeze (b ++ c) := by
  rw [← squeeze_squeeze_append, h, squeeze_squeeze_append]

theorem squeeze_noDash : ∀ us : List U, .dash ∉ us → squeeze us = us
  | [], _ => rfl
  | u :: us, h => by
    simp only [List.mem_cons, not_or] at h
    rw [squeeze_cons, squeeze_noDash us h.2, if_neg]
    rintro ⟨-, hd⟩
    exact h.2 (List.mem_of_head? hd)

theorem unitsAll_append : ∀ a b, unitsAll (a ++ b) = unitsAll a ++ unitsAll b
  | [], b => by simp [unitsAll]
  | e :: a, b => by simp [unitsAll, unitsAll_append a b]

theorem trimEach_chars : ∀ (buf : Text), trimEach (buf.map .ch) = buf.map .ch
  | [] => rfl
  | c :: t => by
    rw [List.map_cons, trimEach_cons, trimEach_chars t, if_neg]
    rintro ⟨-, h⟩
    cases t <;> simp at h

theorem trimEach_chars_tok (n : Nat) (us : List U) : ∀ (buf : Text), trimEach (buf.map .ch ++ .tok n :: us) = buf.map .ch ++ .tok n :: trimEach us
  | [] => by simp [trimEach]
  | c :: t => by
    rw [List.map_cons, List.cons_append, trimEach_cons, trimEach_chars_tok n us t, if_neg]
    · rfl
    · rintro ⟨-, h⟩
      cases t <;> simp at h

theorem trimEach_chars_dash (us : List U) : ∀ (buf : Text), trimEach (buf.map .ch ++ .dash :: us) = (trimOne buf).map .ch ++ .dash :: trimEach us
  | [] => by simp [trimEach, trimOne]
  | [c] => by
    by_cases h : c = ' '
    · subst h; simp [trimEach, trimOne]
    · simp [trimEach, trimOne, h]
  | c :: d :: t => by
    have ih := trimEach_chars_dash us (d :: t)
    rw [List.map_cons, List.cons_append, trimEach_cons, ih, if_neg]
    · have : trimOne (c :: d :: t) = c :: trimOne (d :: t) := by
        simp only [trimOne, List.getLast?_cons_cons, List.dropLast_cons₂]
        split <;> rfl
      rw [this]; rfl
    · rintro ⟨-, h⟩; simp at h

theorem units_flush (buf : Text) : unitsAll (flush buf) = buf.map .ch := by
  unfold flush
  split
  · rename_i h; subst h; rfl
  · simp [unitsAll, units]

theorem units_flushDash (buf : Text) : unitsAll (flushDash buf) = (trimOne buf).map .ch := by
  unfold flushDash
  split
  · rename_i h; subst h; rfl
  · simp [unitsAll, units]

/-! ## Sequences without slices -/

theorem flatLoop_units : ∀ (es result : List MEl) (buf : Text), (∀ e ∈ es, noSlice e = true) →
    unitsAll (flatLoop result buf es) = unitsAll result ++ trimEach (buf.map .ch ++ unitsAll es)
  | [], result, buf, _ => by simp [flatLoop, unitsAll_append, unitsAll, trimEach_chars, units_flush]
  | e :: es, result, buf, h => by
    have h' : ∀ e ∈ es, noSlice e = true := fun x hx => h x (by simp [hx])
    have he := h e (by simp)
    cases e with
    | nil => simp only [flatLoop, unitsAll, units, List.nil_append]; exact flatLoop_units es result buf h'
    | raw t => simp only [flatLoop, unitsAll, units]; rw [flatLoop_units es result (buf ++ t) h']; simp
    | elem t => simp only [flatLoop, unitsAll, units]; rw [flatLoop_units es result (buf ++ t) h']; simp
    | dash =>
      simp only [flatLoop, unitsAll, units]
      rw [flatLoop_units es _ [] h']
      simp only [unitsAll_append, units_flushDash, List.map_nil, List.nil_append, List.cons_append]
      rw [trimEach_chars_dash]
      simp [unitsAll, units]
    | other n =>
      simp only [flatLoop, unitsAll, units]
      rw [flatLoop_units es _ [] h']
      simp only [unitsAll_append, units_flush, List.map_nil, List.nil_append, List.cons_append]
      rw [trimEach_chars_tok]
      simp [unitsAll, units]
    | slice s => simp [noSlice] at he

theorem plain_flush (buf : Text) : ∀ e ∈ flush buf, plain e = true := by
  unfold flush; split <;> simp [plain]

theorem plain_flushDash (buf : Text) : ∀ e ∈ flushDash buf, plain e = true := by
  unfold flushDash; split <;> simp [plain]

theorem flatLoop_plain : ∀ (es result : List MEl) (buf : Text), (∀ e ∈ result, plain e = true) → ∀ e ∈ flatLoop result buf es, plain e = true
  | [], result, buf, h => by
    intro e he
    simp only [flatLoop, List.mem_append] at he
    rcases he with he | he
    · exact h e he
    · exact plain_flush buf e he
  | e :: es, result, buf, h => by
    cases e with
    | nil => exact flatLoop_plain es result buf h
    | raw t => exact flatLoop_plain es result _ h
    | elem t => exact flatLoop_plain es result _ h
    | slice s => exact flatLoop_plain es result _ h
    | dash =>
      refine flatLoop_plain es _ [] ?_
      intro e he
      simp only [List.mem_append, List.mem_singleton] at he
      rcases he with (he | he) | he
      · exact h e he
      · exact plain_flushDash buf e he
      · subst he; rfl
    | other n =>
      refine flatLoop_plain es _ [] ?_
      intro e he
      simp only [List.mem_append, List.mem_singleton] at he
      rcases he with (he | he) | he
      · exact h e he
      · exact plain_flush buf e he
      · subst he; rfl

theorem plain_noSlice (e : MEl) (h : plain e = true) : noSlice e = true := by
  cases e <;> simp_all [plain, noSlice]

theorem adjacent_append : ∀ (a b : List MEl), adjacent a = false → adjacent b = false →
    (∀ x ∈ a.getLast?, ∀ y ∈ b.head?, (isStr x && isStr y) = false) → adjacent (a ++ b) = false
  | [], b, _, hb, _ => hb
  | [x], [], _, _, _ => rfl
  | [x], y :: b, _, hb, h => by
    have := h x (by simp) y (by simp)
    show ((isStr x && isStr y) || adjacent (y :: b)) = false
    rw [this, hb]; rfl
  | x :: y :: a, b, ha, hb, h => by
    simp only [adjacent, Bool.or_eq_false_iff] at ha
    have ih := adjacent_append (y :: a) b ha.2 hb (fun z hz => h z (by simpa [List.getLast?_cons_cons] using hz))
    show ((isStr x && isStr y) || adjacent (y :: a ++ b)) = false
    rw [ha.1, ih]; rfl

/-- The results built by the loop: no adjacent strings, and not ending with a string while text is buffered. -/
theorem flatLoop_adjacent : ∀ (es result : List MEl) (buf : Text), adjacent result = false → (∀ x ∈ result.getLast?, isStr x = false) →
    adjacent (flatLoop result buf es) = false
  | [], result, buf, h, hl => by
    refine adjacent_append _ _ h (by unfold flush; split <;> rfl) (fun x hx y _ => by simp [hl x hx])
  | e :: es, result, buf, h, hl => by
    cases e with
    | nil => exact flatLoop_adjacent es result buf h hl
    | raw t => exact flatLoop_adjacent es result _ h hl
    | elem t => exact flatLoop_adjacent es result _ h hl
    | slice s => exact flatLoop_adjacent es result _ h hl
    | dash =>
      have h1 : adjacent (result ++ flushDash buf) = false :=
        adjacent_append _ _ h (by unfold flushDash; split <;> rfl) (fun x hx y _ => by simp [hl x hx])
      refine flatLoop_adjacent es _ [] ?_ (by simp [isStr])
      exact adjacent_append _ _ h1 rfl (fun x _ y hy => by simp at hy; subst hy; simp [isStr])
    | other n =>
      have h1 : adjacent (result ++ flush buf) = false :=
        adjacent_append _ _ h (by unfold flush; split <;> rfl) (fun x hx y _ => by simp [hl x hx])
      refine flatLoop_adjacent es _ [] ?_ (by simp [isStr])
      exact adjacent_append _ _ h1 rfl (fun x _ y hy => by simp at hy; subst hy; simp [isStr])

theorem loop_flat : ∀ (es result : List MEl) (buf : Text), (∀ e ∈ es, noSlice e = true) → loop result buf es = flatLoop result buf es
  | [], result, buf, _ => by rw [loop, flatLoop]
  | e :: es, result, buf, h => by
    have h' : ∀ e ∈ es, noSlice e = true := fun x hx => h x (by simp [hx])
    have he := h e (by simp)
    cases e with
    | nil => rw [loop, flatLoop, loop_flat es _ _ h']
    | raw t => rw [loop, flatLoop, loop_flat es _ _ h']
    | elem t => rw [loop, flatLoop, loop_flat es _ _ h']
    | dash => rw [loop, flatLoop, loop_flat es _ _ h']
    | other n => rw [loop, flatLoop, loop_flat es _ _ h']
    | slice s => simp [noSlice] at he

/-! ## All sequences -/

theorem loop_plain : ∀ (es result : List MEl) (buf : Text), (∀ e ∈ result, plain e = true) → ∀ e ∈ loop result buf es, plain e = true
  | [], result, buf, h => by
    intro e he
    rw [loop] at he
    rcases List.mem_append.1 he with he | he
    · exact h e he
    · exact plain_flush buf e he
  | e :: es, result, buf, h => by
    cases e with
    | nil => rw [loop]; exact loop_plain es result buf h
    | raw t => rw [loop]; exact loop_plain es result _ h
    | elem t => rw [loop]; exact loop_plain es result _ h
    | slice s =>
      rw [loop]
      split
      · exact loop_plain es result buf h
      · exact loop_plain es _ [] (flatLoop_plain _ _ _ (by simp))
    | dash =>
      rw [loop]
      refine loop_plain es _ [] ?_
      intro e he
      simp only [List.mem_append, List.mem_singleton] at he
      rcases he with (he | he) | he
      · exact h e he
      · exact plain_flushDash buf e he
      · subst he; rfl
    | other n =>
      rw [loop]
      refine loop_plain es _ [] ?_
      intro e he
      simp only [List.mem_append, List.mem_singleton] at he
      rcases he with (he | he) | he
      · exact h e he
      · exact plain_flush buf e he
      · subst he; rfl

theorem squeeze_trimOne (buf : Text) (us : List U) : squeeze ((trimOne buf).map .ch ++ .dash :: us) = squeeze (buf.map .ch ++ .dash :: us) := by
  rw [← squeeze_trimEach (buf.map U.ch ++ .dash :: us), trimEach_chars_dash]
  apply squeeze_append_right
  rw [squeeze_dash, squeeze_dash, squeeze_trimEach]

theorem loop_units : ∀ (es result : List MEl) (buf : Text), (∀ e ∈ result, plain e = true) →
    squeeze (unitsAll (loop result buf es)) = squeeze (unitsAll result ++ (buf.map .ch ++ unitsAll es))
  | [], result, buf, _ => by rw [loop]; simp [unitsAll_append, units_flush, unitsAll]
  | .nil :: es, result, buf, h => by
    rw [loop, loop_units es result buf h]; simp [unitsAll, units]
  | .raw t :: es, result, buf, h => by
    rw [loop, loop_units es result _ h]; simp [unitsAll, units]
  | .elem t :: es, result, buf, h => by
    rw [loop, loop_units es result _ h]; simp [unitsAll, units]
  | .dash :: es, result, buf, h => by
    rw [loop, loop_units es _ [] (by
      intro e he
      simp only [List.mem_append, List.mem_singleton] at he
      rcases he with (he | he) | he
      · exact h e he
      · exact plain_flushDash buf e he
      · subst he; rfl)]
    simp only [unitsAll_append, units_flushDash, unitsAll, units, List.map_nil, List.nil_append, List.append_nil, List.append_assoc, List.cons_append]
    apply squeeze_append_right
    exact squeeze_trimOne buf _
  | .other n :: es, result, buf, h => by
    rw [loop, loop_units es _ [] (by
      intro e he
      simp only [List.mem_append, List.mem_singleton] at he
      rcases he with (he | he) | he
      · exact h e he
      · exact plain_flush buf e he
      · subst he; rfl)]
    simp [unitsAll_append, units_flush, unitsAll, units]
  | .slice s :: es, result, buf, h => by
    rw [loop]
    split
    · rename_i hs
      rw [List.isEmpty_iff.1 hs, loop_units es result buf h]
      simp [unitsAll, units]
    · have hp : ∀ e ∈ result ++ flush buf ++ loop [] [] s, plain e = true := by
        intro e he
        simp only [List.mem_append] at he
        rcases he with (he | he) | he
        · exact h e he
        · exact plain_flush buf e he
        · exact loop_plain s [] [] (by simp) e he
      rw [loop_units es _ [] (flatLoop_plain _ _ _ (by simp))]
      rw [flatLoop_units _ [] [] (fun e he => plain_noSlice e (hp e he))]
      have ih := loop_units s [] [] (by simp)
      simp only [unitsAll, units, List.map_nil, List.nil_append] at ih ⊢
      rw [squeeze_append_left _ _ _ (squeeze_trimEach _)]
      simp only [unitsAll_append, units_flush, List.append_assoc]
      apply squeeze_append_right
      apply squeeze_append_right
      exact squeeze_append_left _ _ _ ih
termination_by es => sizeOf es

/-! ## The properties -/

/-- The call of line 35 is a call of `merge` itself: the model's equation for a slice is the one of the code. -/
theorem merge_go (result s es : List MEl) (buf : Text) (hs : s.isEmpty = false) (hr : ∀ e ∈ result, plain e = true) :
    loop result buf (.slice s :: es) = loop (merge (result ++ flush buf ++ merge s)) [] es := by
  rw [loop, if_neg (by simp [hs])]
  congr 1
  refine (loop_flat _ _ _ (fun e he => plain_noSlice e ?_)).symm
  simp only [List.mem_append] at he
  rcases he with (he | he) | he
  · exact hr e he
  · exact plain_flush buf e he
  · exact loop_plain s [] [] (by simp) e he

/-- C21, shape: the result of merging contains string elements and other elements only, no nil and no nested slice. -/
theorem merged_plain (es : List MEl) : ∀ e ∈ merge es, plain e = true := loop_plain es [] [] (by simp)

/-- C21, content: merging changes neither the characters nor the elements nor their order, except that it drops spaces directly
before a `--`. -/
theorem merged_content (es : List MEl) : squeeze (unitsAll (merge es)) = squeeze (unitsAll es) := by
  have := loop_units es [] [] (by simp)
  simpa [merge, unitsAll] using this

theorem trimEach_sub : ∀ us : List U, ∀ u ∈ trimEach us, u ∈ us
  | [], u, h => h
  | v :: vs, u, h => by
    rw [trimEach_cons] at h
    split at h
    · exact List.mem_cons_of_mem _ (trimEach_sub vs u h)
    · rcases List.mem_cons.1 h with h | h
      · subst h; simp
      · exact List.mem_cons_of_mem _ (trimEach_sub vs u h)

theorem mem_squeeze_dash : ∀ us : List U, .dash ∈ us → .dash ∈ squeeze us
  | [], h => h
  | u :: us, h => by
    rw [squeeze_cons]
    split
    · rename_i hc
      rcases List.mem_cons.1 h with h | h
      · rw [hc.1] at h; simp at h
      · exact mem_squeeze_dash us h
    · rcases List.mem_cons.1 h with h | h
      · subst h; simp
      · exact List.mem_cons_of_mem _ (mem_squeeze_dash us h)

/-- C21, exact content: without a `--` in the sequence, nothing at all changes. -/
theorem merged_content_exact (es : List MEl) (h : .dash ∉ unitsAll es) : unitsAll (merge es) = unitsAll es := by
  have hm := merged_content es
  have h2 : .dash ∉ unitsAll (merge es) := by
    intro hc
    have := mem_squeeze_dash _ hc
    rw [hm, squeeze_noDash _ h] at this
    exact h this
  rw [squeeze_noDash _ h, squeeze_noDash _ h2] at hm
  exact hm

/-- C21, flat sequences: exactly one space before each `--` is dropped. -/
theorem merged_content_flat (es : List MEl) (h : ∀ e ∈ es, noSlice e = true) : unitsAll (merge es) = trimEach (unitsAll es) := by
  unfold merge
  rw [loop_flat es [] [] h, flatLoop_units es [] [] h]; rfl

/-- C21, flat sequences: there are no two string elements in a row. -/
theorem merged_flat (es : List MEl) (h : ∀ e ∈ es, noSlice e = true) : adjacent (merge es) = false := by
  unfold merge
  rw [loop_flat es [] [] h]
  exact flatLoop_adjacent es [] [] rfl (by simp)

/-- C21: nor if everything is in one slice, as for the content of quoted text. -/
theorem merged_slice (es : List MEl) : adjacent (merge [.slice es]) = false := by
  unfold merge
  rw [loop]
  split
  · rw [loop]; rfl
  · rw [loop]
    simp only [flush, if_true, List.append_nil]
    exact flatLoop_adjacent _ [] [] rfl (by simp)

/-- C21: merging what was merged leaves no two string elements in a row. -/
theorem merged_twice (es : List MEl) : adjacent (merge (merge es)) = false :=
  merged_flat _ (fun e he => plain_noSlice e (merged_plain es e he))

theorem merge_strings : ∀ (es : List MEl) (buf : Text), (∀ e ∈ es, ∃ t, e = .raw t ∨ e = .elem t) →
    ∃ t, loop [] buf es = flush (buf ++ t) ∧ unitsAll es = t.map .ch
  | [], buf, _ => ⟨[], by rw [loop]; simp, rfl⟩
  | e :: es, buf, h => by
    obtain ⟨t, ht⟩ := h e (by simp)
    obtain ⟨u, hu, hu'⟩ := merge_strings es (buf ++ t) (fun x hx => h x (by simp [hx]))
    refine ⟨t ++ u, ?_, ?_⟩
    · rcases ht with rfl | rfl <;> rw [loop, hu] <;> simp
    · rcases ht with rfl | rfl <;> simp [unitsAll, units, hu']

/-- C21, `Reduce`: a sequence of strings and string elements reduces to the concatenated text, or to nil if that is empty. -/
theorem reduced_text (f : Text → Text) (es : List MEl) (t : Text) (h : ∀ e ∈ es, ∃ t, e = .raw t ∨ e = .elem t) (ht : unitsAll es = t.map .ch) :
    reduce f es = if t = [] then .nil else .str (f t) := by
  obtain ⟨u, hu, hu'⟩ := merge_strings es [] h
  have : u = t := by
    rw [hu'] at ht
    exact (List.map_inj_right (by intro a b e; cases e; rfl)).1 ht
  subst this
  unfold reduce merge
  rw [hu, List.nil_append]
  unfold flush
  by_cases hn : u = []
  · rw [if_pos hn, if_pos hn]
  · rw [if_neg hn, if_neg hn]

/-- C21, `Reduce`: whatever is returned has the content of the argument (without `--`). -/
theorem reduced_content (es : List MEl) (h : .dash ∉ unitsAll es) :
    (match reduce (fun t => t) es with
      | .nil => unitsAll es = []
      | .str t => unitsAll es = t.map .ch
      | .els r => unitsAll es = unitsAll r) := by
  have he := merged_content_exact es h
  unfold reduce
  split
  · rename_i hm
    split at hm
    · rename_i hm'; rw [hm'] at he; exact he.symm
    · simp at hm
    · simp at hm
  · rename_i t hm
    split at hm
    · simp at hm
    · rename_i u hm'
      cases hm
      rw [hm'] at he
      rw [← he]; simp [unitsAll, units]
    · simp at hm
  · rename_i r hm
    split at hm
    · simp at hm
    · simp at hm
    · rename_i r' h1 h2
      cases hm
      exact he.symm

/-! ## Examples and findings -/

example : ∀ e ∈ [MEl.raw ['a', ' '], .nil, .elem ['b'], .other 1, .elem ['c', ' '], .dash], noSlice e = true := by simp [noSlice]
example : merge [.raw ['a', ' '], .nil, .elem ['b'], .other 1, .elem ['c', ' '], .dash] =
    [.elem ['a', ' ', 'b'], .other 1, .elem ['c'], .dash] := by
  simp [merge, loop, flush, flushDash, trimOne]

/-- Finding: text that follows a nested slice is not merged with the text at the end of that slice, so that two string
elements remain in a row, and `Reduce` does not return a string. -/
theorem finding_text_after_slice_not_merged :
    merge [.slice [.raw ['a']], .raw ['b']] = [.elem ['a'], .elem ['b']] ∧
      reduce (fun t => t) [.slice [.raw ['a']], .raw ['b']] = .els [.elem ['a'], .elem ['b']] := by
  constructor <;> simp [reduce, merge, loop, flush, flatLoop]

/-- Finding: merging is not idempotent: a space is lost before `--` each time (`merge` merges its own results when it
meets a slice). -/
theorem finding_spaces_lost :
    merge [.elem ['a', ' ', ' ', ' '], .dash, .slice [.other 1]] = [.elem ['a', ' '], .dash, .other 1] ∧
      merge (merge [.elem ['a', ' ', ' ', ' '], .dash, .slice [.other 1]]) = [.elem ['a'], .dash, .other 1] := by
  constructor <;> simp [merge, loop, flush, flushDash, trimOne, flatLoop]

end Verif.C21

namespace Verif.C41
open Verif.Merge

/-! ## Specification -/

/-- A unit of content. -/
inductive U where
  | ch (c : Char)
  | el (e : MEl)

/-- The content of an element: the characters of a string element, or the element itself. -/
def content : MEl → List U
  | .elem t => t.map .ch
  | e => [.el e]

/-- The content of a sequence. -/
def contents (es : List MEl) : List U := es.flatMap content

/-- Lines joined by newlines. -/
def joinLines : List (List MEl) → List U
  | [] => []
  | [l] => contents l
  | l :: ls => contents l ++ .ch '\n' :: joinLines ls

/-- The lines with a newline after each. -/
def terminated (ls : List (List MEl)) : List U := ls.flatMap (fun l => contents l ++ [.ch '\n'])

theorem terminated_append (a b : List (List MEl)) : terminated (a ++ b) = terminated a ++ terminated b := by simp [terminated]

theorem contents_addText (line : List MEl) (t : Text) : contents (addText line t) = contents line ++ t.map .ch := by
  unfold addText
  split
  · rename_i h; subst h; simp
  · simp [contents, content]

theorem splitNL_ne (t : Text) : splitNL t ≠ [] := by
  cases t with
  | nil => simp [splitNL]
  | cons c t => simp only [splitNL]
                split
                · simp
                · split <;> simp

/-- Text lines joined by newlines. -/
def joinText : List Text → Text
  | [] => []
  | [l] => l
  | l :: m :: ls => l ++ '\n' :: joinText (m :: ls)

theorem join_splitNL : ∀ t : Text, joinText (splitNL t) = t
  | [] => rfl
  | c :: t => by
    have ih := join_splitNL t
    simp only [splitNL]
    split
    · rename_i h
      subst h
      cases hs : splitNL t with
      | nil => exact absurd hs (splitNL_ne t)
      | cons l ls => rw [hs] at ih; simp [joinText, ih]
    · split
      · rename_i hs; exact absurd hs (splitNL_ne t)
      · rename_i l ls hs
        rw [hs] at ih
        cases ls with
        | nil => simp only [joinText] at ih ⊢; rw [ih]
        | cons m ls => simp only [joinText, List.cons_append] at ih ⊢; rw [ih]

theorem splitPieces_spec : ∀ (ts : List Text) (lines : List (List MEl)) (line : List MEl),
    terminated (splitPieces lines line ts).1 ++ contents (splitPieces lines line ts).2 =
      terminated lines ++ contents line ++ (joinText ts).map .ch
  | [], lines, line => by simp [splitPieces, joinText]
  | [t], lines, line => by simp [splitPieces, joinText, contents_addText]
  | t :: u :: ts, lines, line => by
    rw [splitPieces, splitPieces_spec (u :: ts), terminated_append]
    have hn : contents [] = [] := rfl
    simp [terminated, contents_addText, joinText, hn]

theorem splitLoop_spec : ∀ (es : List MEl) (lines : List (List MEl)) (line : List MEl),
    terminated (splitLoop lines line es).1 ++ contents (splitLoop lines line es).2 = terminated lines ++ contents line ++ contents es
  | [], lines, line => by simp [splitLoop, contents]
  | e :: es, lines, line => by
    have other : (∀ t, e ≠ .elem t) → splitLoop lines line (e :: es) = splitLoop lines (line ++ [e]) es := by
      intro h; cases e <;> first | rfl | exact absurd rfl (h _)
    by_cases h : ∃ t, e = .elem t
    · obtain ⟨t, rfl⟩ := h
      simp only [splitLoop]
      rw [splitLoop_spec es, splitPieces_spec, join_splitNL]
      simp [contents, content]
    · have h' : ∀ t, e ≠ .elem t := fun t he => h ⟨t, he⟩
      rw [other h', splitLoop_spec es]
      simp [contents]

theorem terminated_join : ∀ (ls : List (List MEl)) (l : List MEl), joinLines (ls ++ [l]) = terminated ls ++ contents l
  | [], l => by simp [joinLines, terminated]
  | a :: ls, l => by
    have ih := terminated_join ls l
    cases hl : ls ++ [l] with
    | nil => simp at hl
    | cons b bs =>
      rw [hl] at ih
      rw [List.cons_append, hl, joinLines, ih]
      · simp [terminated]
      · simp

/-- C41: the lines of a source block joined by newlines are its content, character by character and element by element,
up to one newline at the very end. -/
theorem lines_joined (es : List MEl) :
    joinLines (splitPerLine es) = contents es ∨ joinLines (splitPerLine es) ++ [.ch '\n'] = contents es := by
  have h := splitLoop_spec es [] []
  simp only [terminated, contents, List.flatMap_nil, List.nil_append] at h
  unfold splitPerLine
  simp only
  split
  · rename_i he
    rw [List.isEmpty_iff] at he
    rw [he] at h
    simp only [List.flatMap_nil, List.append_nil] at h
    cases hl : (splitLoop [] [] es).1.reverse with
    | nil =>
      rw [List.reverse_eq_nil_iff] at hl
      rw [hl] at h ⊢
      exact Or.inl (by simpa [joinLines, contents] using h)
    | cons l ls =>
      have hl' : (splitLoop [] [] es).1 = ls.reverse ++ [l] := by
        rw [← List.reverse_reverse (splitLoop [] [] es).1, hl]; simp
      rw [hl'] at h ⊢
      refine Or.inr ?_
      rw [terminated_join]
      unfold contents
      rw [← h]
      simp [terminated, contents]
  · rw [terminated_join]
    exact Or.inl (by simpa [terminated, contents] using h)

/-- Whether a value has a newline in its text. -/
def hasNL : MEl → Bool
  | .elem t => t.contains '\n'
  | _ => false

theorem splitNL_noNL : ∀ (t : Text), ∀ l ∈ splitNL t, l.contains '\n' = false
  | [], l, h => by simp [splitNL] at h; subst h; rfl
  | c :: t, l, h => by
    have ih := splitNL_noNL t
    simp only [splitNL] at h
    split at h
    · rcases List.mem_cons.1 h with h | h
      · subst h; rfl
      · exact ih l h
    · rename_i hc
      split at h
      · rename_i hs; exact absurd hs (splitNL_ne t)
      · rename_i m ms hs
        rw [hs] at ih
        rcases List.mem_cons.1 h with h | h
        · subst h
          have := ih m (by simp)
          rw [List.contains_cons, this, Bool.or_false]
          simp [Ne.symm hc]
        · exact ih l (by simp [h])

theorem addText_noNL (line : List MEl) (t : Text) (hl : ∀ e ∈ line, hasNL e = false) (ht : t.contains '\n' = false) :
    ∀ e ∈ addText line t, hasNL e = false := by
  unfold addText
  split
  · exact hl
  · intro e he
    rcases List.mem_append.1 he with he | he
    · exact hl e he
    · simp only [List.mem_singleton] at he; subst he; exact ht

theorem splitPieces_noNL : ∀ (ts : List Text) (lines : List (List MEl)) (line : List MEl), (∀ l ∈ lines, ∀ e ∈ l, hasNL e = false) →
    (∀ e ∈ line, hasNL e = false) → (∀ t ∈ ts, t.contains '\n' = false) →
    (∀ l ∈ (splitPieces lines line ts).1, ∀ e ∈ l, hasNL e = false) ∧ (∀ e ∈ (splitPieces lines line ts).2, hasNL e = false)
  | [], lines, line, h1, h2, _ => ⟨h1, h2⟩
  | [t], lines, line, h1, h2, h3 => ⟨h1, addText_noNL line t h2 (h3 t (by simp))⟩
  | t :: u :: ts, lines, line, h1, h2, h3 => by
    rw [splitPieces]
    refine splitPieces_noNL (u :: ts) _ [] ?_ (by simp) (fun x hx => h3 x (by simp at hx; simp [hx]))
    intro l hl
    rcases List.mem_append.1 hl with hl | hl
    · exact h1 l hl
    · simp only [List.mem_singleton] at hl; subst hl; exact addText_noNL line t h2 (h3 t (by simp))

theorem splitLoop_noNL : ∀ (es : List MEl) (lines : List (List MEl)) (line : List MEl), (∀ l ∈ lines, ∀ e ∈ l, hasNL e = false) →
    (∀ e ∈ line, hasNL e = false) →
    (∀ l ∈ (splitLoop lines line es).1, ∀ e ∈ l, hasNL e = false) ∧ (∀ e ∈ (splitLoop lines line es).2, hasNL e = false)
  | [], lines, line, h1, h2 => ⟨h1, h2⟩
  | e :: es, lines, line, h1, h2 => by
    by_cases h : ∃ t, e = .elem t
    · obtain ⟨t, rfl⟩ := h
      simp only [splitLoop]
      obtain ⟨a, b⟩ := splitPieces_noNL (splitNL t) lines line h1 h2 (splitNL_noNL t)
      exact splitLoop_noNL es _ _ a b
    · have : splitLoop lines line (e :: es) = splitLoop lines (line ++ [e]) es := by
        cases e <;> first | rfl | exact absurd ⟨_, rfl⟩ h
      rw [this]
      refine splitLoop_noNL es _ _ h1 ?_
      intro x hx
      rcases List.mem_append.1 hx with hx | hx
      · exact h2 x hx
      · simp only [List.mem_singleton] at hx
        subst hx
        cases x <;> first | rfl | exact absurd ⟨_, rfl⟩ h

/-- C41: no line contains a newline. -/
theorem lines_are_lines (es : List MEl) : ∀ l ∈ splitPerLine es, ∀ e ∈ l, hasNL e = false := by
  obtain ⟨a, b⟩ := splitLoop_noNL es [] [] (by simp) (by simp)
  unfold splitPerLine
  simp only
  split
  · exact a
  · intro l hl
    rcases List.mem_append.1 hl with hl | hl
    · exact a l hl
    · simp only [List.mem_singleton] at hl; subst hl; exact b

example : splitPerLine [.elem ['a', '\n', '\n', 'b'], .other 1, .elem ['\n', 'c']] =
    [[.elem ['a']], [], [.elem ['b'], .other 1], [.elem ['c']]] := by rfl

end Verif.C41
