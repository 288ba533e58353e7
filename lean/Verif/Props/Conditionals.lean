import Verif.Proofs.Conditionals
/-!
C01 — conditional inclusion keeps exactly the enabled lines.
C02 — preprocessing is the identity on directive-free text.
-/
namespace Verif.C01

/-- **C01**, for any document (includes and level offsets allowed). The result of preprocessing is
made of the texts of the lines at which every open conditional was true when opened, joined by
single LFs; `runEvs` lists what each line amounts to, without looking at conditionals. -/
theorem visible_lines (env : Env) (n : Nat) (ctx : Ctx) (src : Text) :
    preprocess env (n + 1) ctx src =
      match runEvs env (includeFile env (preprocess env n)) ctx [] (scanLines src) with
      | .error e => .error e
      | .ok (es, ctx', _) => .ok (joinLF (visible es), ctx'.offsets) :=
  preprocess_eq env n ctx src

/-- **C01**, self-contained form for documents without include directives and level offsets: line
`i` contributes its text iff every conditional that is open there evaluated to true with the
attributes declared before *its* opening line. -/
theorem conditional_lines (env : Env) (cls : Text → Option RawElem) (n : Nat) (ctx : Ctx) (src : Text)
    (hcls : ∀ l ∈ scanLines src, ∀ se wb, env.classify se wb l = cls l)
    (hinc : ∀ l ∈ scanLines src, ∀ i, cls l ≠ some (.incl i)) (hoff : ctx.offsets = []) :
    preprocess env (n + 1) ctx src = .ok (joinLF (visible (eventsOf ctx.attrs cls (scanLines src))), []) := by
  rw [preprocess_eq]
  obtain ⟨ctx', tr', h, h'⟩ := runEvs_plain env (includeFile env (preprocess env n)) cls (scanLines src) ctx [] hcls hinc hoff
  rw [h]
  simp [h']

/-- **C01.** A surplus `endif` changes nothing: at a point where no conditional is open it can be
removed from the document. -/
theorem surplus_endif (env : Env) (cls : Text → Option RawElem) (n : Nat) (ctx : Ctx) (src src' : Text)
    (a b : List Text) (e : Text) (hsrc : scanLines src = a ++ e :: b) (hsrc' : scanLines src' = a ++ b)
    (he : cls e = some .endif) (hopen : openConds (eventsOf ctx.attrs cls a) = [])
    (hcls : ∀ l ∈ scanLines src, ∀ se wb, env.classify se wb l = cls l)
    (hinc : ∀ l ∈ scanLines src, ∀ i, cls l ≠ some (.incl i)) (hoff : ctx.offsets = []) :
    preprocess env (n + 1) ctx src = preprocess env (n + 1) ctx src' := by
  have sub : ∀ l ∈ scanLines src', l ∈ scanLines src := by
    intro l hl
    rw [hsrc'] at hl; rw [hsrc]
    simp only [List.mem_append, List.mem_cons] at *
    rcases hl with h | h
    · exact Or.inl h
    · exact Or.inr (Or.inr h)
  rw [conditional_lines env cls n ctx src hcls hinc hoff,
    conditional_lines env cls n ctx src' (fun l hl => hcls l (sub l hl)) (fun l hl => hinc l (sub l hl)) hoff,
    hsrc, hsrc', eventsOf_append, eventsOf_append, eventsOf_cons, he]
  rw [show evOf (attrsAfter ctx.attrs (a.map cls)) e (some .endif) = Ev.cls from rfl, visible_surplus _ _ hopen]
  rfl

/-! #### Concrete cases -/

/-- A small concrete classifier used in the examples. -/
def demoCls (l : Text) : Option RawElem :=
  if l = "ifdef::a[]".toList then some (.cond (.ifdef "a" none))
  else if l = "ifndef::a[]".toList then some (.cond (.ifndef "a" none))
  else if l = "ifdef::b[]".toList then some (.cond (.ifdef "b" none))
  else if l = "ifdef::b[x]".toList then some (.cond (.ifdef "b" (some ['x'])))
  else if l = "endif::[]".toList then some .endif
  else if l = ":b: 1".toList then some (.decl "b" (.str ['1']) l)
  else if l = "include::missing[]".toList then some (.incl ⟨[.lit "missing".toList], none, none, none⟩)
  else none

/-- A small concrete environment used in the examples (no file exists). -/
def demoEnv : Env := ⟨fun _ _ l => demoCls l, fun _ p => p, fun _ => none, Char.isAlphanum, fun _ => []⟩

/-- A document with nested conditionals, a surplus `endif` and attributes declared on the way. -/
def demoLines : List Text :=
  ["endif::[]", "one", "ifdef::a[]", "two", "ifdef::b[]", "three", "endif::[]", ":b: 1", "ifdef::b[]", "four",
   "endif::[]", "endif::[]", "ifndef::a[]", "five", "ifdef::b[]", "six", "endif::[]", "endif::[]", "ifdef::b[x]"].map String.toList

-- the hypotheses of `conditional_lines` are met and the outcome is the expected one
set_option maxRecDepth 20000 in
example : preprocess demoEnv 1 (rootCtx [] [("a", .int 1)]) (unlines demoLines) =
    .ok (joinLF (["one", "two", ":b: 1", "four", "x"].map String.toList), []) := by
  rfl
example : (∀ l ∈ demoLines, ∀ se wb, demoEnv.classify se wb l = demoCls l) ∧
    (∀ l ∈ demoLines, ∀ i, demoCls l ≠ some (.incl i)) := by
  refine ⟨fun _ _ _ _ => rfl, ?_⟩
  intro l hl
  simp only [demoLines, List.map_cons, List.map_nil, List.mem_cons, List.not_mem_nil, or_false] at hl
  rcases hl with rfl | rfl | rfl | rfl | rfl | rfl | rfl | rfl | rfl | rfl | rfl | rfl | rfl | rfl | rfl | rfl | rfl | rfl | rfl <;>
    (intro i; simp [demoCls])

/-- **Finding.** An attribute declared inside a conditional block that is not taken still takes
effect: the declaration itself is not part of the output but a later `ifdef` sees it. -/
theorem finding_declaration_in_disabled_region_takes_effect :
    preprocess demoEnv 1 (rootCtx [] [])
      (unlines (["ifdef::a[]", ":b: 1", "endif::[]", "ifdef::b[]", "shown", "endif::[]"].map String.toList)) =
      .ok ("shown".toList, []) := by
  rfl

/-- **Finding.** An include directive inside a conditional block that is not taken is still
resolved: if the file is missing the whole preprocessing fails. -/
theorem finding_include_in_disabled_region_is_resolved :
    preprocess demoEnv 2 (rootCtx [] [])
      (unlines (["ifdef::a[]", "include::missing[]", "endif::[]"].map String.toList)) = .error .error := by
  rfl

end Verif.C01

namespace Verif.C02

/-- A line that the preprocessor does not interpret in the given context. -/
def Plain (env : Env) (ctx : Ctx) (l : Text) : Prop := env.classify ctx.sectEnabled ctx.within l = none

theorem runEvs_none (env : Env) (inc) (ctx : Ctx) (tr : Tracker) : ∀ lines : List Text,
    (∀ l ∈ lines, Plain env ctx l) →
    C01.runEvs env inc ctx tr lines = .ok (lines.map C01.Ev.emit, ctx, tr) := by
  intro lines
  induction lines with
  | nil => intro _; rfl
  | cons l ls ih =>
    intro h
    have hl : env.classify ctx.sectEnabled ctx.within l = none := h l (by simp)
    simp only [C01.runEvs, C01.stepEv, hl, ih (fun x hx => h x (by simp [hx])), List.map_cons]

theorem visible_emits (ls : List Text) : C01.visible (ls.map C01.Ev.emit) = ls := by
  rw [← C01.chunks_eq_visible]
  induction ls with
  | nil => rfl
  | cons l ls ih => simpa [C01.chunks, condsEval] using ih

theorem preprocess_plain (env : Env) (n : Nat) (ctx : Ctx) (src : Text)
    (h : ∀ l ∈ scanLines src, Plain env ctx l) :
    preprocess env (n + 1) ctx src = .ok (joinLF (scanLines src), ctx.offsets) := by
  rw [C01.preprocess_eq, runEvs_none env _ ctx [] _ h]
  simp [visible_emits]

theorem fits_iff (l : Text) : fits l = true ↔ utf8Len l ≤ 65535 := by
  unfold fits; exact decide_eq_true_iff

theorem takeWhile_all {α : Type} {p : α → Bool} {ls : List α} (h : ∀ l ∈ ls, p l = true) : ls.takeWhile p = ls := by
  induction ls with
  | nil => rfl
  | cons l ls ih => simp [h l (by simp), ih (fun x hx => h x (by simp [hx]))]

theorem scanLines_of_phys {src : Text} {ls : List Text} (hp : physLines src = ls) (hf : ∀ l ∈ ls, fits l = true) :
    scanLines src = ls.map dropCR := by
  unfold scanLines
  rw [hp, takeWhile_all hf]

/-- A text line as it can occur in a document: no LF inside, no trailing CR, at most 65535 bytes. -/
def OkLine (l : Text) : Prop := '\n' ∉ l ∧ l.getLast? ≠ some '\r' ∧ utf8Len l ≤ 65535

/-- **C02.** Lines that are not directives are kept as they are and in order, each terminated by LF
in the source or all but the last one, and the result has a single LF between lines and none at the end. -/
theorem identity (env : Env) (n : Nat) (ctx : Ctx) (ls : List Text) (hok : ∀ l ∈ ls, OkLine l)
    (hplain : ∀ l ∈ ls, Plain env ctx l) :
    preprocess env (n + 1) ctx (unlines ls) = .ok (joinLF ls, ctx.offsets) ∧
    (ls.getLast? ≠ some [] → preprocess env (n + 1) ctx (joinLF ls) = .ok (joinLF ls, ctx.offsets)) := by
  have hcr : ls.map dropCR = ls := by
    conv => rhs; rw [← List.map_id ls]
    apply List.map_congr_left
    intro l hl
    exact dropCR_of_not_suffix l (hok l hl).2.1
  have hf : ∀ l ∈ ls, fits l = true := fun l hl => (fits_iff l).2 (hok l hl).2.2
  constructor
  · have hs : scanLines (unlines ls) = ls := by
      rw [scanLines_of_phys (physLines_unlines ls (fun l hl => (hok l hl).1)) hf, hcr]
    rw [preprocess_plain env n ctx _ (by rw [hs]; exact hplain), hs]
  · intro hl
    have hs : scanLines (joinLF ls) = ls := by
      rw [scanLines_of_phys (physLines_joinLF ls (fun l hl => (hok l hl).1) hl) hf, hcr]
    rw [preprocess_plain env n ctx _ (by rw [hs]; exact hplain), hs]

/-- **C02.** CRLF terminated lines come out LF separated. -/
theorem identity_crlf (env : Env) (n : Nat) (ctx : Ctx) (ls : List Text)
    (hok : ∀ l ∈ ls, '\n' ∉ l ∧ utf8Len l ≤ 65534) (hplain : ∀ l ∈ ls, Plain env ctx l) :
    preprocess env (n + 1) ctx (unlines (ls.map (· ++ ['\r']))) = .ok (joinLF ls, ctx.offsets) := by
  have hp : physLines (unlines (ls.map (· ++ ['\r']))) = ls.map (· ++ ['\r']) := by
    apply physLines_unlines
    intro l hl
    obtain ⟨x, hx, rfl⟩ := List.mem_map.1 hl
    simpa using (hok x hx).1
  have hf : ∀ l ∈ ls.map (· ++ ['\r']), fits l = true := by
    intro l hl
    obtain ⟨x, hx, rfl⟩ := List.mem_map.1 hl
    have := (hok x hx).2
    have e : utf8Len (x ++ ['\r']) = utf8Len x + 1 := by
      have : Char.utf8Size '\r' = 1 := by decide
      simp [utf8Len, this]
    rw [fits_iff]; omega
  have hs : scanLines (unlines (ls.map (· ++ ['\r']))) = ls := by
    rw [scanLines_of_phys hp hf, List.map_map]
    conv => rhs; rw [← List.map_id ls]
    apply List.map_congr_left
    intro l _
    exact dropCR_append_cr l
  rw [preprocess_plain env n ctx _ (by rw [hs]; exact hplain), hs]

/-- **C02, the full statement is false.** A line of more than 65535 bytes makes the preprocessor
silently drop that line and everything after it: the loop ends without looking at `scanner.Err()`. -/
theorem finding_long_line_truncates (env : Env) (n : Nat) (ctx : Ctx) (before after : List Text) (long : Text)
    (hb : ∀ l ∈ before, OkLine l) (hbp : ∀ l ∈ before, Plain env ctx l) (ha : ∀ l ∈ after, '\n' ∉ l)
    (hl : '\n' ∉ long) (hlong : 65535 < utf8Len long) :
    preprocess env (n + 1) ctx (unlines (before ++ long :: after)) = .ok (joinLF before, ctx.offsets) := by
  have hp : physLines (unlines (before ++ long :: after)) = before ++ long :: after := by
    apply physLines_unlines
    intro l h
    simp only [List.mem_append, List.mem_cons] at h
    rcases h with h | rfl | h
    · exact (hb l h).1
    · exact hl
    · exact ha l h
  have hs : scanLines (unlines (before ++ long :: after)) = before := by
    unfold scanLines
    rw [hp, List.takeWhile_append_of_pos (fun l h => (fits_iff l).2 (hb l h).2.2)]
    rw [List.takeWhile_cons_of_neg (by rw [fits_iff]; omega), List.append_nil]
    conv => rhs; rw [← List.map_id before]
    apply List.map_congr_left
    intro l h
    exact dropCR_of_not_suffix l (hb l h).2.1
  rw [preprocess_plain env n ctx _ (by rw [hs]; exact hbp), hs]

-- non-vacuity
example : ∀ l ∈ (["some text", "", "= title"].map String.toList), OkLine l := by
  intro l hl
  simp only [List.map_cons, List.map_nil, List.mem_cons, List.not_mem_nil, or_false] at hl
  rcases hl with rfl | rfl | rfl <;> refine ⟨by decide, by decide, by decide⟩
example : 65535 < utf8Len (List.replicate 65536 'x') := by
  have : Char.utf8Size 'x' = 1 := by decide
  simp only [utf8Len, List.map_replicate, this, List.sum_replicate_nat]; omega

end Verif.C02
