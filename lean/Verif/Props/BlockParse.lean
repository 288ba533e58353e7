import Verif.Props.BlockValues

/-!
# C62, continued — Documents of paragraphs and delimited blocks are split into these
-/
namespace Verif
namespace C62
open Peg Grammar Actions FragmentLoop Composed
open Walk (Any Kind)
open C59 (Cut Code alnum)
open C49 (LenCode SizedRules)
open C48 (firstLine)
open Paragraphs (Line)

variable {σ : Type} {S : Sem σ} {A : Peg.Code σ} {len : σ → Nat} {t r z : Text}

/-! ### Delimited blocks -/

def verbKind : Verbatim → Kind
  | .listing => .listing
  | .literal => .literal
  | .fenced => .fenced
  | .pass => .pass

def compKind : Compound → Kind
  | .example_ => .example_
  | .sidebar => .sidebar
  | .quote => .quote
  | .open_ => .open_

/-- The lines of a block, as they are kept by the parser. -/
def rawLines (ls : List Text) : List Any := appendNewlines (ls.map (fun l => .raw (trimRight l)))

/-- A block. -/
def delimited (c : Char) (f : Fences) (ls : List Text) (z : Text) : Text := fence c f.n f.first ++ '\n' :: (unlines ls ++ (fence c f.n f.last ++ z))

/-- The rule of delimited blocks of a kind. -/
def verbRule : Verbatim → Nat
  | .listing => R.ListingBlock
  | .literal => R.LiteralBlock
  | .fenced => R.FencedBlock
  | .pass => R.PassthroughBlock

def compRule : Compound → Nat
  | .example_ => R.ExampleBlock
  | .sidebar => R.SidebarBlock
  | .quote => R.QuoteBlock
  | .open_ => R.OpenBlock

theorem verb_rule (hS : LenCode S len) (hA : Obeys A) {k : Verbatim} {f : Fences} (hn : k.least ≤ f.n) (hf : f.Ok) {ls : List Text}
    (hls : ∀ l ∈ ls, (∀ c ∈ l, isEol c = false) ∧ ¬ Closes k.mark f.n l) (hz : Cut z r) {st : Text} :
    Exactly grammar S A st (.rule (verbRule k)) (delimited k.mark f ls z) [.block (verbKind k) [] (rawLines ls)] r := by
  cases k with
  | listing => exact sizedV hS hA C49.listing_rules (fun _ _ _ _ _ => rfl) (fun _ _ _ => rfl) (by decide) (by decide) hn (by decide) hf.1 hf.2 hls hz
  | literal => exact sizedV hS hA C49.literal_rules (fun _ _ _ _ _ => rfl) (fun _ _ _ => rfl) (by decide) (by decide) hn (by decide) hf.1 hf.2 hls hz
  | fenced => exact sizedV hS hA C49.fenced_rules (fun _ _ _ _ _ => rfl) (fun _ _ _ => rfl) (by decide) (by decide) hn (by decide) hf.1 hf.2 hls hz
  | pass => exact sizedV hS hA C49.passthrough_rules (fun _ _ _ _ _ => rfl) (fun _ _ _ => rfl) (by decide) (by decide) hn (by decide) hf.1 hf.2 hls hz

theorem comp_rule (hS : LenCode S len) (hA : Obeys A) {k : Compound} {f : Fences} (hn : k.Length f.n) (hf : f.Ok) {ls : List Text}
    (hls : ∀ l ∈ ls, (∀ c ∈ l, isEol c = false) ∧ ¬ Closes k.mark f.n l) (hz : Cut z r) {st : Text} :
    Exactly grammar S A st (.rule (compRule k)) (delimited k.mark f ls z) [.block (compKind k) [] (rawLines ls)] r := by
  cases k with
  | example_ => exact sizedV hS hA C49.example_rules (fun _ _ _ _ _ => rfl) (fun _ _ _ => rfl) (by decide) (by decide) hn (by decide) hf.1 hf.2 hls hz
  | sidebar => exact sizedV hS hA C49.sidebar_rules (fun _ _ _ _ _ => rfl) (fun _ _ _ => rfl) (by decide) (by decide) hn (by decide) hf.1 hf.2 hls hz
  | quote => exact sizedV hS hA C49.quote_rules (fun _ _ _ _ _ => rfl) (fun _ _ _ => rfl) (by decide) (by decide) hn (by decide) hf.1 hf.2 hls hz
  | open_ =>
    obtain ⟨n, w, w'⟩ := f
    have hn : n = 2 := hn
    subst hn
    exact openV hS hA hf.1 hf.2 hls hz

/-- No language after three back quotes: a delimiter is not the beginning of a block of code. -/
theorem never_code {n : Nat} (h3 : 3 ≤ n) {w x : Text} (hw : ∀ c ∈ w, isBlank c = true) (ht : w.head? ≠ some '\t') :
    Never grammar S (.rule R.MarkdownCodeDelimiter) (fence '`' n w ++ '\n' :: x) := by
  obtain ⟨m, rfl⟩ : ∃ m, n = 3 + m := ⟨n - 3, by omega⟩
  have e : fence '`' (3 + m) w ++ '\n' :: x = ['`', '`', '`'] ++ (List.replicate m '`' ++ w ++ '\n' :: x) := by
    unfold fence
    rw [← List.replicate_append_replicate]
    simp [List.replicate]
  rw [e]
  refine yields_rule (yields_act (yields_scope (yields_seq (yields_lit (l := ['`', '`', '`'])) (never_seq ?_))))
  refine (C49.yields_lang _).to (if_neg ?_)
  cases m with
  | succ m => simp [List.replicate_succ, C49.isLang]
  | zero =>
    cases w with
    | nil => simp [C49.isLang]
    | cons c w =>
      have hc := hw c List.mem_cons_self
      simp only [isBlank, Bool.or_eq_true, beq_iff_eq] at hc
      rcases hc with rfl | rfl
      · exact absurd rfl ht
      · simp [C49.isLang]

theorem fence_cons {c : Char} {n : Nat} (h : 1 ≤ n) {w x : Text} : ∃ y, fence c n w ++ x = c :: y := by
  obtain ⟨m, rfl⟩ : ∃ m, n = m + 1 := ⟨n - 1, by omega⟩
  exact ⟨List.replicate m c ++ w ++ x, by unfold fence; rw [List.replicate_succ]; rfl⟩

/-- Rules of blocks that begin with other characters. -/
theorem never_starts {c : Char} {n : Nat} (h : 1 ≤ n) {w x : Text} {e : Exp} (F : List Char) (hc : c ∉ F) (he : starts grammar F 24 e = true) :
    Never grammar S e (fence c n w ++ x) := by
  obtain ⟨y, hy⟩ := fence_cons (c := c) (w := w) (x := x) h
  rw [hy]
  exact starts_never hc 24 e he

theorem verb_pos {k : Verbatim} {n : Nat} (h : k.least ≤ n) : 1 ≤ n := by cases k <;> exact Nat.le_trans (by decide) h

theorem comp_pos {k : Compound} {n : Nat} (h : k.Length n) : 1 ≤ n := by
  cases k with
  | open_ => have : n = 2 := h; omega
  | _ => exact Nat.le_trans (by decide) h

theorem verb_block (hS : LenCode S len) (hA : Obeys A) {k : Verbatim} {f : Fences} (hn : k.least ≤ f.n) (hf : f.Ok) (htab : k = .fenced → f.first.head? ≠ some '\t')
    {ls : List Text} (hls : ∀ l ∈ ls, (∀ c ∈ l, isEol c = false) ∧ ¬ Closes k.mark f.n l) (hz : Cut z r) {st : Text} :
    Exactly grammar S A st (.rule R.DelimitedBlock) (delimited k.mark f ls z) [.block (verbKind k) [] (rawLines ls)] r := by
  have h := fun st => verb_rule (st := st) hS hA hn hf hls hz
  have never : ∀ (e : Exp) (F : List Char), k.mark ∉ F → starts grammar F 24 e = true → Never grammar S e (delimited k.mark f ls z) := fun e F h1 h2 =>
    never_starts (verb_pos hn) F h1 h2
  refine exactly_rule (exactly_alt_right (never _ ['/'] (by cases k <;> decide) (by decide)) (exactly_alt_right (never _ ['='] (by cases k <;> decide) (by decide)) ?_))
  cases k with
  | fenced =>
    refine exactly_alt_right ?_ (exactly_alt_left (h _))
    exact yields_rule (yields_act (yields_scope (never_seq (yields_rule (never_code hn hf.1 (htab rfl))))))
  | listing => exact exactly_alt_right (never _ ['`'] (by decide) (by decide)) (exactly_alt_right (never _ ['`'] (by decide) (by decide)) (exactly_alt_left (h _)))
  | literal => exact exactly_alt_right (never _ ['`'] (by decide) (by decide)) (exactly_alt_right (never _ ['`'] (by decide) (by decide))
      (exactly_alt_right (never _ ['-'] (by decide) (by decide)) (exactly_alt_left (h _))))
  | pass => exact exactly_alt_right (never _ ['`'] (by decide) (by decide)) (exactly_alt_right (never _ ['`'] (by decide) (by decide))
      (exactly_alt_right (never _ ['-'] (by decide) (by decide)) (exactly_alt_right (never _ ['.'] (by decide) (by decide))
      (exactly_alt_right (never _ ['>'] (by decide) (by decide)) (exactly_alt_right (never _ ['-'] (by decide) (by decide)) (exactly_alt_left (h _)))))))

theorem comp_block (hS : LenCode S len) (hA : Obeys A) {k : Compound} {f : Fences} (hn : k.Length f.n) (hf : f.Ok)
    {ls : List Text} (hls : ∀ l ∈ ls, (∀ c ∈ l, isEol c = false) ∧ ¬ Closes k.mark f.n l) (hz : Cut z r) {st : Text} :
    Exactly grammar S A st (.rule R.DelimitedBlock) (delimited k.mark f ls z) [.block (compKind k) [] (rawLines ls)] r := by
  have h := fun st => comp_rule (st := st) hS hA hn hf hls hz
  have never : ∀ (e : Exp) (F : List Char), k.mark ∉ F → starts grammar F 24 e = true → Never grammar S e (delimited k.mark f ls z) := fun e F h1 h2 =>
    never_starts (comp_pos hn) F h1 h2
  refine exactly_rule (exactly_alt_right (never _ ['/'] (by cases k <;> decide) (by decide)) ?_)
  cases k with
  | example_ => exact exactly_alt_left (h _)
  | open_ =>
    refine exactly_alt_right (never _ ['='] (by decide) (by decide)) (exactly_alt_right (never _ ['`'] (by decide) (by decide)) (exactly_alt_right (never _ ['`'] (by decide) (by decide))
      (exactly_alt_right ?_ (exactly_alt_right (never _ ['.'] (by decide) (by decide))
      (exactly_alt_right (never _ ['>'] (by decide) (by decide)) (exactly_alt_left (h _)))))))
    have hd : Never grammar S (.rule R.ListingBlockDelimiter) (delimited '-' f ls z) := by
      refine (C49.yields_delimiter (S := S) C49.listing_rules.hchar.1 C49.listing_rules.hchar.2 C49.listing_rules.hdelim _).to ?_
      obtain ⟨n, w, w'⟩ := f
      have hn : n = 2 := hn
      subst hn
      have hl : firstLine (delimited '-' ⟨2, w, w'⟩ ls z) = fence '-' 2 w := firstLine_cut (.line (r := unlines ls ++ (fence '-' 2 w' ++ z))) (fence_inline (by decide) hf.1)
      rw [hl]
      have : C49.delimLen '-' 4 (fence '-' 2 w) = none := by
        cases hD : C49.delimLen '-' 4 (fence '-' 2 w) with
        | none => rfl
        | some m =>
          have h1 := (C49.delimLen_le hD).1
          have h2 : 2 = C49.leading '-' (fence '-' 2 w) := C49.delimLen_some (fence_len (k := 2) (c := '-') (by decide) (Nat.le_refl 2) hf.1)
          omega
      rw [this]
      rfl
    exact yields_rule (yields_act (yields_scope (never_seq (yields_rule hd))))
  | quote => exact exactly_alt_right (never _ ['='] (by decide) (by decide)) (exactly_alt_right (never _ ['`'] (by decide) (by decide)) (exactly_alt_right (never _ ['`'] (by decide) (by decide))
      (exactly_alt_right (never _ ['-'] (by decide) (by decide)) (exactly_alt_right (never _ ['.'] (by decide) (by decide))
      (exactly_alt_right (never _ ['>'] (by decide) (by decide)) (exactly_alt_right (never _ ['-'] (by decide) (by decide)) (exactly_alt_right (never _ ['+'] (by decide) (by decide)) (exactly_alt_left (h _)))))))))
  | sidebar => exact exactly_alt_right (never _ ['='] (by decide) (by decide)) (exactly_alt_right (never _ ['`'] (by decide) (by decide)) (exactly_alt_right (never _ ['`'] (by decide) (by decide))
      (exactly_alt_right (never _ ['-'] (by decide) (by decide)) (exactly_alt_right (never _ ['.'] (by decide) (by decide))
      (exactly_alt_right (never _ ['>'] (by decide) (by decide)) (exactly_alt_right (never _ ['-'] (by decide) (by decide)) (exactly_alt_right (never _ ['+'] (by decide) (by decide))
      (exactly_alt_right (never _ ['_'] (by decide) (by decide)) (h _)))))))))

/-! ### Fragments -/

theorem follows (hS : Code S) : Follows S (fun _ _ => none) where
  pred _ _ _ _ _ h := nomatch h
  letter c h := (hS.ascii c h).1
  number c h := (hS.ascii c h).2

theorem no_comment {c : Char} {n : Nat} {w : Text} (hn : 1 ≤ n) (hc : c ≠ '/') : C49.comment (fence c n w) = none := by
  obtain ⟨y, hy⟩ := fence_cons (c := c) (w := w) (x := []) hn
  rw [List.append_nil] at hy
  rw [hy]
  have : C49.delimLen '/' 4 (c :: y) = none := by
    unfold C49.delimLen C49.leading
    rw [List.takeWhile_cons_of_neg (by simpa using hc)]
    rfl
  unfold C49.comment
  rw [this]
  rfl

theorem delimited_fragment (hS : Code S) (hA : Obeys A) {c : Char} {f : Fences} {ls : List Text} {v : Any} (hc : c ∈ ['-', '.', '`', '+', '=', '*', '_']) (hn : 1 ≤ f.n)
    (hf : f.Ok) (hcl : (C49.closing (fence c f.n f.first)).isSome = true) (hz : Cut z r)
    (hx : ∀ st, Exactly grammar S A st (.rule R.DelimitedBlock) (delimited c f ls z) [v] r) {st : Text} :
    Exactly grammar S A st (.rule R.DocumentFragment) (delimited c f ls z) [v] r := by
  have hc' : isEol c = false ∧ c ≠ '/' := by
    simp only [List.mem_cons, List.not_mem_nil, or_false] at hc
    rcases hc with rfl | rfl | rfl | rfl | rfl | rfl | rfl <;> decide
  have hl : firstLine (delimited c f ls z) = fence c f.n f.first :=
    firstLine_cut (.line (r := unlines ls ++ (fence c f.n f.last ++ z))) (fence_inline hc'.1 hf.1)
  obtain ⟨close, hclose⟩ := Option.isSome_iff_exists.mp hcl
  obtain ⟨hb, hsec, hmac, _⟩ := C49.alternatives (follows hS) (t := delimited c f ls z) (close := close) (by rw [hl]; exact no_comment hn hc'.2) (by rw [hl]; exact hclose)
  have hlt : r.length < (delimited c f ls z).length := by
    have : r.length ≤ z.length := by cases hz <;> simp
    simp only [delimited, List.length_append, List.length_cons]
    omega
  obtain ⟨y, hy⟩ := fence_cons (c := c) (w := f.first) (x := '\n' :: (unlines ls ++ (fence c f.n f.last ++ z))) hn
  have hy : delimited c f ls z = c :: y := hy
  rw [hy] at hb hsec hmac hlt hx ⊢
  refine C59.fragment hA hS (hb _ (by decide)) hlt (fun st => ?_)
  exact exactly_alt_right (hb _ (by decide)) (exactly_alt_right hmac (exactly_alt_right (hb _ (by decide)) (exactly_alt_right (hb _ (by decide))
    (exactly_alt_right (hb _ (by decide)) (exactly_alt_right (hb _ (by decide)) (exactly_alt_right (hb _ (by decide)) (exactly_alt_right hsec
    (exactly_alt_left (hx st)))))))))

theorem closing_sized {c : Char} {k n : Nat} {w : Text} (hm : (c, k) ∈ [('=', 4), ('`', 3), ('-', 4), ('.', 4), ('+', 4), ('_', 4), ('*', 4)]) (hk : k ≤ n)
    (hw : ∀ x ∈ w, isBlank x = true) : (C49.closing (fence c n w)).isSome = true := by
  have hc : isBlank c = false := by
    simp only [List.mem_cons, Prod.mk.injEq, List.not_mem_nil, or_false] at hm
    rcases hm with ⟨rfl, _⟩ | ⟨rfl, _⟩ | ⟨rfl, _⟩ | ⟨rfl, _⟩ | ⟨rfl, _⟩ | ⟨rfl, _⟩ | ⟨rfl, _⟩ <;> rfl
  have h : (C49.sized c k (fence c n w)).isSome = true := by
    unfold C49.sized
    rw [fence_len hc hk hw]
    rfl
  unfold C49.closing
  simp only [Option.isSome_or, Bool.or_eq_true]
  simp only [List.mem_cons, Prod.mk.injEq, List.not_mem_nil, or_false] at hm
  rcases hm with ⟨rfl, rfl⟩ | ⟨rfl, rfl⟩ | ⟨rfl, rfl⟩ | ⟨rfl, rfl⟩ | ⟨rfl, rfl⟩ | ⟨rfl, rfl⟩ | ⟨rfl, rfl⟩ <;> simp [h]

theorem closing_open {w : Text} (hw : ∀ x ∈ w, isBlank x = true) : (C49.closing (fence '-' 2 w)).isSome = true := by
  have h : (C49.openBlock (fence '-' 2 w)).isSome = true := by
    unfold C49.openBlock
    rw [exactly_fence.mpr ⟨w, hw, rfl⟩]
    rfl
  unfold C49.closing
  simp only [Option.isSome_or, Bool.or_eq_true]
  simp [h]

theorem verb_fragment (hS : Code S) (hL : LenCode S len) (hA : Obeys A) {k : Verbatim} {f : Fences} (hn : k.least ≤ f.n) (hf : f.Ok) (htab : k = .fenced → f.first.head? ≠ some '\t')
    {ls : List Text} (hls : ∀ l ∈ ls, (∀ c ∈ l, isEol c = false) ∧ ¬ Closes k.mark f.n l) (hz : Cut z r) {st : Text} :
    Exactly grammar S A st (.rule R.DocumentFragment) (delimited k.mark f ls z) [.block (verbKind k) [] (rawLines ls)] r :=
  delimited_fragment hS hA (by cases k <;> decide) (verb_pos hn) hf (closing_sized (k := k.least) (by cases k <;> decide) hn hf.1) hz
    (fun _ => verb_block hL hA hn hf htab hls hz)

theorem comp_closing {k : Compound} {f : Fences} (hn : k.Length f.n) (hf : f.Ok) : (C49.closing (fence k.mark f.n f.first)).isSome = true := by
  cases k with
  | open_ =>
    have hn : f.n = 2 := hn
    rw [hn]
    exact closing_open hf.1
  | _ => exact closing_sized (k := 4) (by decide) hn hf.1

theorem comp_fragment (hS : Code S) (hL : LenCode S len) (hA : Obeys A) {k : Compound} {f : Fences} (hn : k.Length f.n) (hf : f.Ok)
    {ls : List Text} (hls : ∀ l ∈ ls, (∀ c ∈ l, isEol c = false) ∧ ¬ Closes k.mark f.n l) (hz : Cut z r) {st : Text} :
    Exactly grammar S A st (.rule R.DocumentFragment) (delimited k.mark f ls z) [.block (compKind k) [] (rawLines ls)] r :=
  delimited_fragment hS hA (by cases k <;> decide) (comp_pos hn) hf (comp_closing hn hf) hz (fun _ => comp_block hL hA hn hf hls hz)

/-! ### What ends a paragraph -/

theorem sure_delimiter (hS : Code S) {c : Char} {k n : Nat} {w x : Text} (hm : (c, k) ∈ [('=', 4), ('`', 3), ('-', 4), ('.', 4), ('+', 4), ('_', 4), ('*', 4)])
    (hk : k ≤ n) (hw : ∀ x ∈ w, isBlank x = true) : Sure grammar S (.rule R.BlockDelimiter) (fence c n w ++ '\n' :: x) := by
  have h1 : 1 ≤ n := by
    simp only [List.mem_cons, Prod.mk.injEq, List.not_mem_nil, or_false] at hm
    omega
  have hal : Yields grammar S (.notP (.rule R.Alphanum)) (fence c n w ++ '\n' :: x) (some (fence c n w ++ '\n' :: x)) := by
    obtain ⟨y, hy⟩ := fence_cons (c := c) (w := w) (x := '\n' :: x) h1
    rw [hy]
    refine yields_notP (yields_rule (yields_cls_no ?_))
    rw [C59.alnum_cls]
    unfold alnum
    simp only [List.mem_cons, Prod.mk.injEq, List.not_mem_nil, or_false] at hm
    rcases hm with ⟨rfl, _⟩ | ⟨rfl, _⟩ | ⟨rfl, _⟩ | ⟨rfl, _⟩ | ⟨rfl, _⟩ | ⟨rfl, _⟩ | ⟨rfl, _⟩ <;>
      (rw [(hS.ascii _ (by decide)).1, (hS.ascii _ (by decide)).2]; rfl)
  have hd : ∀ {delim d d' : Nat}, c ≠ '\uFFFD' → isEol c = false → isBlank c = false → grammar delim = .act d (.scope (.seq (.act d' (.scope (.seq (.lit (List.replicate k c)) (.star (.lit [c])))))
    (.seq (.star (.rule R.Space)) (.rule R.EOL)))) → Sure grammar S (.rule delim) (fence c n w ++ '\n' :: x) := by
    intro delim d d' hc1 hc2 hc3 hG
    have := C49.yields_delimiter (S := S) hc1 hc2 hG (fence c n w ++ '\n' :: x)
    refine (this.to (o' := some x) ?_).sure
    rw [firstLine_cut .line (fence_inline hc2 hw), fence_len hc3 hk hw, afterLine_cut .line (fence_inline hc2 hw)]
    rfl
  refine sure_rule (sure_act (sure_scope (sure_seq hal ?_)))
  simp only [List.mem_cons, Prod.mk.injEq, List.not_mem_nil, or_false] at hm
  rcases hm with ⟨rfl, rfl⟩ | ⟨rfl, rfl⟩ | ⟨rfl, rfl⟩ | ⟨rfl, rfl⟩ | ⟨rfl, rfl⟩ | ⟨rfl, rfl⟩ | ⟨rfl, rfl⟩
  · exact sure_alt_right (sure_alt_left (hd (by decide) rfl rfl C49.example_rules.hdelim))
  · exact sure_alt_right (sure_alt_right (sure_alt_right (sure_alt_left (hd (by decide) rfl rfl C49.fenced_rules.hdelim))))
  · exact sure_alt_right (sure_alt_right (sure_alt_right (sure_alt_right (sure_alt_left (hd (by decide) rfl rfl C49.listing_rules.hdelim)))))
  · exact sure_alt_right (sure_alt_right (sure_alt_right (sure_alt_right (sure_alt_right (sure_alt_left (hd (by decide) rfl rfl C49.literal_rules.hdelim))))))
  · exact sure_alt_right (sure_alt_right (sure_alt_right (sure_alt_right (sure_alt_right (sure_alt_right (sure_alt_left (hd (by decide) rfl rfl C49.passthrough_rules.hdelim)))))))
  · exact sure_alt_right (sure_alt_right (sure_alt_right (sure_alt_right (sure_alt_right (sure_alt_right (sure_alt_right (sure_alt_left (hd (by decide) rfl rfl C49.quote_rules.hdelim))))))))
  · exact sure_alt_right (sure_alt_right (sure_alt_right (sure_alt_right (sure_alt_right (sure_alt_right (sure_alt_right (sure_alt_right (hd (by decide) rfl rfl C49.sidebar_rules.hdelim))))))))

theorem ends_paragraph (hS : Code S) {c : Char} {k n : Nat} {w x : Text} (hm : (c, k) ∈ [('=', 4), ('`', 3), ('-', 4), ('.', 4), ('+', 4), ('_', 4), ('*', 4)])
    (hk : k ≤ n) (hw : ∀ x ∈ w, isBlank x = true) : Never grammar S C59.others (fence c n w ++ '\n' :: x) := by
  have h1 : 1 ≤ n := by
    simp only [List.mem_cons, Prod.mk.injEq, List.not_mem_nil, or_false] at hm
    omega
  have hsure := sure_delimiter (x := x) hS hm hk hw
  refine yields_act (yields_scope ?_)
  obtain ⟨y, hy⟩ := fence_cons (c := c) (w := w) (x := '\n' :: x) h1
  rw [hy] at hsure ⊢
  exact yields_seq yields_NotEOF (C49.never_after (fun _ _ _ _ h => C49.notP_stays h) (C49.never_after (fun _ _ _ _ h => C49.notP_stays h)
    (never_seq (never_notP hsure))))

/-! ### Documents -/

/-- What the parser makes of a block. -/
def element : Block → Any
  | .para l ls => .paragraph [] (Paragraphs.kept (l :: ls))
  | .blank _ => .leaf 0
  | .verb k _ ls => .block (verbKind k) [] (rawLines (ls.map Line.full))
  | .comp k _ bs => .block (compKind k) [] (rawLines (lines bs))

theorem blank_inline {c : Char} (h : isBlank c = true) : isEol c = false := by
  simp only [isBlank, Bool.or_eq_true, beq_iff_eq] at h
  rcases h with rfl | rfl <;> rfl

theorem verb_mark (k : Verbatim) : isEol k.mark = false := by cases k <;> rfl
theorem comp_mark (k : Compound) : isEol k.mark = false := by cases k <;> rfl

mutual
/-- Lines are lines. -/
theorem block_inline {alnum : Char → Bool} : ∀ {b : Block}, b.Ok alnum → ∀ l ∈ b.lines, ∀ c ∈ l, isEol c = false
  | .para l ls, h => by
    intro x hx
    obtain ⟨y, hy, rfl⟩ := List.mem_map.mp hx
    rcases List.mem_cons.mp hy with rfl | hy
    · exact h.1.one
    · exact (h.2.2 y hy).1.one
  | .blank w, h => by
    intro x hx
    cases List.mem_singleton.mp hx
    exact fun c hc => blank_inline (h c hc)
  | .verb k f ls, h => by
    intro x hx
    rcases List.mem_cons.mp hx with rfl | hx
    · exact fence_inline (verb_mark k) h.2.1.1
    rcases List.mem_append.mp hx with hx | hx
    · obtain ⟨y, hy, rfl⟩ := List.mem_map.mp hx
      exact (h.2.2.2 y hy).1.one
    · cases List.mem_singleton.mp hx
      exact fence_inline (verb_mark k) h.2.1.2
  | .comp k f bs, h => by
    intro x hx
    rcases List.mem_cons.mp hx with rfl | hx
    · exact fence_inline (comp_mark k) h.2.1.1
    rcases List.mem_append.mp hx with hx | hx
    · exact lines_inline h.2.2.1 x hx
    · cases List.mem_singleton.mp hx
      exact fence_inline (comp_mark k) h.2.1.2
theorem lines_inline {alnum : Char → Bool} : ∀ {bs : List Block}, Good alnum bs → ∀ l ∈ lines bs, ∀ c ∈ l, isEol c = false
  | [], _ => fun _ h => nomatch h
  | b :: bs, h => by
    intro x hx
    rcases List.mem_append.mp hx with hx | hx
    · exact block_inline h.1 x hx
    · exact lines_inline h.2.2 x hx
end

theorem joinLF_delimited (a b : Text) : ∀ ls : List Text, joinLF (a :: (ls ++ [b])) = a ++ '\n' :: (unlines ls ++ b)
  | [] => rfl
  | l :: ls => by
    have := joinLF_delimited l b ls
    show a ++ '\n' :: joinLF (l :: (ls ++ [b])) = _
    rw [this]
    simp [unlines]

/-- The document, with `z` at the end of the last line. -/
def written (z : Text) : List Block → Text
  | [] => []
  | [b] => joinLF b.lines ++ z
  | b :: bs => joinLF b.lines ++ '\n' :: written z bs

/-- The last line is not blank, or has an end. -/
def Closed (z : Text) (bs : List Block) : Prop := z = [] → bs.getLast? ≠ some (.blank [])

theorem closed_tail {b : Block} {bs : List Block} (h : Closed z (b :: bs)) : Closed z bs := by
  cases bs with
  | nil => exact fun _ h => nomatch h
  | cons b' bs => exact fun hz hl => h hz (by rw [List.getLast?_cons_cons]; exact hl)

theorem written_cons (hz : Cut z []) (b : Block) (bs : List Block) (hc : Closed z (b :: bs)) : ∃ z', Cut z' (written z bs) ∧
    written z (b :: bs) = joinLF b.lines ++ z' ∧ (b = .blank [] → z' ≠ []) := by
  cases bs with
  | nil => exact ⟨z, hz, rfl, fun hb h => hc h (by rw [hb]; rfl)⟩
  | cons b' bs => exact ⟨_, .line, rfl, fun _ h => nomatch h⟩

/-- What follows a paragraph ends it. -/
theorem never_more (hS : Code S) (hz : Cut z []) {l : Line} {ls : List Line} : ∀ {bs : List Block}, Good (alnum S) bs → Closed z bs → Separate (.para l ls) bs →
    Never grammar S C59.others (written z bs)
  | [], _, _, _ => C59.never_others (.inl rfl)
  | .blank w :: bs, h, hc, _ => by
    obtain ⟨z', hz', e, hn⟩ := written_cons hz _ bs hc
    refine C59.never_others (.inr ⟨w, z', _, e, hz', ?_, h.1⟩)
    rw [e]
    cases w with
    | nil => exact hn rfl
    | cons c w => exact fun h => nomatch h
  | .para _ _ :: _, _, _, h => h.elim
  | .verb k f ls :: bs, h, hc, _ => by
    obtain ⟨z', hz', e, hn⟩ := written_cons hz _ bs hc
    rw [e, Block.lines, joinLF_delimited, List.append_assoc, List.cons_append]
    exact ends_paragraph hS (k := k.least) (by cases k <;> decide) h.1.1 h.1.2.1.1
  | .comp k f bs' :: bs, h, hc, hs => by
    obtain ⟨z', hz', e, hn⟩ := written_cons hz _ bs hc
    rw [e, Block.lines, joinLF_delimited, List.append_assoc, List.cons_append]
    cases k with
    | open_ => exact hs.elim
    | _ => exact ends_paragraph hS (k := 4) (by decide) h.1.1 h.1.2.1.1

/-- A block is a fragment, whatever comes after it. -/
theorem fragment_one (hS : Code S) (hL : LenCode S len) (hA : Obeys A) (hz : Cut z r) {b : Block} (h : b.Ok (alnum S)) (hn : b = .blank [] → z ≠ [])
    (hp : ∀ l ls, b = .para l ls → Never grammar S C59.others r) {st : Text} :
    Exactly grammar S A st (.rule R.DocumentFragment) (joinLF b.lines ++ z) [element b] r := by
  cases b with
  | para l ls => exact C59.paraFragment hS hA h.1 h.2.1 h.2.2 hz (hp l ls rfl)
  | blank w =>
    refine C59.blankFragment hS hA h hz ?_
    cases w with
    | nil => exact hn rfl
    | cons c w => exact fun h => nomatch h
  | verb k f ls =>
    rw [Block.lines, joinLF_delimited, List.append_assoc, List.cons_append, List.append_assoc]
    refine verb_fragment hS hL hA h.1 h.2.1 h.2.2.1 (fun x hx => ?_) hz
    obtain ⟨y, hy, rfl⟩ := List.mem_map.mp hx
    exact ⟨(h.2.2.2 y hy).1.one, (h.2.2.2 y hy).2⟩
  | comp k f bs' =>
    rw [Block.lines, joinLF_delimited, List.append_assoc, List.cons_append, List.append_assoc]
    exact comp_fragment hS hL hA h.1 h.2.1 (fun x hx => ⟨lines_inline h.2.2.1 x hx, h.2.2.2 x hx⟩) hz

/-- One fragment for each block. -/
theorem fragment (hS : Code S) (hL : LenCode S len) (hA : Obeys A) (hz : Cut z []) {b : Block} {bs : List Block} (h : Good (alnum S) (b :: bs))
    (hc : Closed z (b :: bs)) {st : Text} :
    Exactly grammar S A st (.rule R.DocumentFragment) (written z (b :: bs)) [element b] (written z bs) := by
  obtain ⟨z', hz', e, hn⟩ := written_cons hz _ bs hc
  rw [e]
  exact fragment_one hS hL hA hz' h.1 hn (fun l ls hb => never_more hS hz h.2.2 (closed_tail hc) (hb ▸ h.2.1))

theorem element_single (b : Block) : elementsOf (element b) = [element b] := by cases b <;> rfl

theorem first_char {alnum : Char → Bool} (hz : Cut z []) {b : Block} {bs : List Block} (h : Good alnum (b :: bs)) (hc : Closed z (b :: bs)) :
    ∃ c t, written z (b :: bs) = c :: t ∧ (alnum c = true ∨ c ∈ ['-', '.', '`', '+', '=', '*', '_', ' ', '\t', '\n']) := by
  obtain ⟨z', hz', e, hn⟩ := written_cons hz _ bs hc
  rw [e]
  cases b with
  | para l ls =>
    obtain ⟨c, x, hx, ha, _⟩ := h.1.2.1.first
    cases ls <;> exact ⟨c, _, by simp [Block.lines, joinLF, hx]; rfl, .inl ha⟩
  | blank w =>
    cases w with
    | nil =>
      generalize written z bs = q at hz'
      cases hz' with
      | eof => exact absurd rfl (hn rfl)
      | line => exact ⟨_, _, rfl, .inr (by decide)⟩
    | cons c w =>
      refine ⟨c, _, rfl, .inr ?_⟩
      have := h.1 c List.mem_cons_self
      simp only [isBlank, Bool.or_eq_true, beq_iff_eq] at this
      rcases this with rfl | rfl <;> decide
  | verb k f ls =>
    rw [Block.lines, joinLF_delimited, List.append_assoc]
    obtain ⟨y, hy⟩ := fence_cons (c := k.mark) (w := f.first) (x := '\n' :: (unlines (ls.map Line.full) ++ fence k.mark f.n f.last) ++ z') (verb_pos h.1.1)
    exact ⟨_, _, hy, .inr (by cases k <;> decide)⟩
  | comp k f bs' =>
    rw [Block.lines, joinLF_delimited, List.append_assoc]
    obtain ⟨y, hy⟩ := fence_cons (c := k.mark) (w := f.first) (x := '\n' :: (unlines (lines bs') ++ fence k.mark f.n f.last) ++ z') (comp_pos h.1.1)
    exact ⟨_, _, hy, .inr (by cases k <;> decide)⟩

theorem loop_written (hS : Code S) (hL : LenCode S len) (hA : Obeys A) (failed : σ → Bool) {depth : Nat} (hz : Cut z []) :
    ∀ {rounds : Nat} {s : σ} {bs : List Block} {o : OutcomeV}, Good (alnum S) bs → Closed z bs →
      loopV S A failed depth rounds s (written z bs) = some o →
      o.stop = .reported ∨ o = ⟨bs.map (fun b => [element b]), .endOfDocument, []⟩
  | 0, _, _, _, _, _, h => nomatch h
  | _ + 1, _, [], o, _, _, h => by cases h; exact .inr rfl
  | rounds + 1, s, b :: bs, o, hg, hc, h => by
    have hx := fragment hS hL hA hz hg hc (st := written z (b :: bs))
    have hc' := closed_tail hc
    obtain ⟨c, t, e, _⟩ := first_char hz hg hc
    rw [e] at h hx
    unfold loopV at h
    cases hr : runV grammar S A depth (.rule R.DocumentFragment) (c :: t) s (c :: t) with
    | none => rw [hr] at h; cases h
    | some q =>
      rw [hr] at h
      have hp := hx s q ⟨depth, hr⟩
      cases q with
      | fail s' => cases hp
      | ok s' v u =>
        cases hp
        dsimp only at h
        split at h
        · cases h; exact .inl rfl
        · split at h
          · next heq => cases b <;> cases heq
          · cases hl : loopV S A failed depth rounds s' (written z bs) with
            | none => rw [hl] at h; cases h
            | some o' =>
              rw [hl] at h
              cases h
              rcases loop_written hS hL hA failed hz hg.2.2 hc' hl with ih | rfl
              · exact .inl ih
              · refine .inr ?_
                rw [List.flatMap_cons, List.flatMap_nil, element_single]
                rfl

theorem lines_ne (b : Block) : b.lines ≠ [] := by cases b <;> exact fun h => nomatch h

theorem lines_cons_ne (b : Block) (bs : List Block) : lines (b :: bs) ≠ [] := by
  intro h
  exact lines_ne b (List.append_eq_nil_iff.mp (show b.lines ++ lines bs = [] from h)).1

theorem written_eq (z : Text) : ∀ (bs : List Block), bs ≠ [] → written z bs = joinLF (lines bs) ++ z
  | [], h => absurd rfl h
  | [b], _ => by
    show _ = joinLF (b.lines ++ []) ++ z
    rw [List.append_nil]
    rfl
  | b :: b' :: bs, _ => by
    have ih := written_eq z (b' :: bs) (fun h => nomatch h)
    show joinLF b.lines ++ '\n' :: written z (b' :: bs) = joinLF (b.lines ++ lines (b' :: bs)) ++ z
    rw [ih, C59.joinLF_append _ _ (lines_ne b) (lines_cons_ne b' bs)]
    simp

theorem written_source (bs : List Block) : written ['\n'] bs = source bs := by
  cases bs with
  | nil => rfl
  | cons b bs => rw [written_eq _ (b :: bs) (fun h => nomatch h)]; exact (C59.unlines_joinLF _ (lines_cons_ne b bs)).symm

theorem separate_dropLast {b b' : Block} {bs : List Block} (h : Separate b (b' :: bs)) : Separate b (b' :: bs).dropLast := by
  cases bs with
  | nil => cases b <;> trivial
  | cons b2 bs =>
    show Separate b (b' :: (b2 :: bs).dropLast)
    cases b with
    | para l ls =>
      cases b' with
      | para _ _ => exact h
      | comp k f x => cases k <;> exact h
      | _ => trivial
    | _ => trivial

theorem good_dropLast {alnum : Char → Bool} : ∀ {bs : List Block}, Good alnum bs → Good alnum bs.dropLast
  | [], h => h
  | [_], _ => trivial
  | _ :: b :: bs, h => ⟨h.1, separate_dropLast h.2.1, good_dropLast (bs := b :: bs) h.2.2⟩

/-- The document without the empty line at its end. -/
def trimmed (bs : List Block) : List Block :=
  match bs.getLast? with
  | some (.blank []) => bs.dropLast
  | _ => bs

theorem trimmed_good {alnum : Char → Bool} {bs : List Block} (h : Good alnum bs) : Good alnum (trimmed bs) := by
  unfold trimmed
  split
  · exact good_dropLast h
  · exact h

theorem lines_append : ∀ (as bs : List Block), lines (as ++ bs) = lines as ++ lines bs
  | [], _ => rfl
  | a :: as, bs => by
    show a.lines ++ lines (as ++ bs) = _
    rw [lines_append as bs, ← List.append_assoc]
    rfl

/-- Without the last end of line: how it looks, for the last blank line or without it. -/
theorem joined_written (bs : List Block) : ∃ z, Cut z [] ∧ joinLF (lines bs) = written z (trimmed bs) ∧ Closed z (trimmed bs) := by
  unfold trimmed
  split
  · next h =>
    obtain ⟨as, rfl⟩ : ∃ as, bs = as ++ [.blank []] := ⟨bs.dropLast, by
      have hne : bs ≠ [] := by rintro rfl; cases h
      have := List.dropLast_concat_getLast hne
      rw [List.getLast?_eq_some_getLast hne] at h
      rw [Option.some.inj h] at this
      exact this.symm⟩
    rw [List.dropLast_concat]
    refine ⟨['\n'], .line, ?_, fun h => nomatch h⟩
    cases as with
    | nil => rfl
    | cons b as =>
      rw [written_eq _ (b :: as) (fun h => nomatch h)]
      have : lines (b :: as ++ [.blank []]) = lines (b :: as) ++ [[]] := lines_append (b :: as) [.blank []]
      rw [this, C59.joinLF_append _ [[]] (lines_cons_ne b as) (fun h => nomatch h)]
      rfl
  · next h =>
    refine ⟨[], .eof, ?_, fun _ hl => h hl⟩
    cases bs with
    | nil => rfl
    | cons b bs => rw [written_eq _ (b :: bs) (fun h => nomatch h), List.append_nil]

/-- **C62** (first part): a document of paragraphs, blank lines and delimited blocks is split into exactly these. -/
theorem split_into_blocks (hS : Code S) (hL : LenCode S len) (hA : Obeys A) (failed : σ → Bool) {depth rounds : Nat} {s : σ} {bs : List Block} {o : OutcomeV}
    (hg : Good (alnum S) bs) (h : loopV S A failed depth rounds s (source bs) = some o) :
    o.stop = .reported ∨ o = ⟨bs.map (fun b => [element b]), .endOfDocument, []⟩ :=
  loop_written hS hL hA failed .line hg (fun h => nomatch h) (by rw [written_source]; exact h)

/-- The same for the text that preprocessing gives. -/
theorem split_preprocessed (hS : Code S) (hL : LenCode S len) (hA : Obeys A) (failed : σ → Bool) {depth rounds : Nat} {s : σ} {bs : List Block} {o : OutcomeV}
    (hg : Good (alnum S) bs) (h : loopV S A failed depth rounds s (joinLF (lines bs)) = some o) :
    o.stop = .reported ∨ o = ⟨(trimmed bs).map (fun b => [element b]), .endOfDocument, []⟩ := by
  obtain ⟨z, hz, e, hc⟩ := joined_written bs
  exact loop_written hS hL hA failed hz (trimmed_good hg) hc (by rw [← e]; exact h)

/-- … when no error is reported. -/
theorem blocks_preprocessed (hS : Code S) (hL : LenCode S len) (hA : Obeys A) {bs : List Block} (hg : Good (alnum S) bs) (s : σ) :
    ∃ depth rounds, loopV S A (fun _ => false) depth rounds s (joinLF (lines bs)) =
      some ⟨(trimmed bs).map (fun b => [element b]), .endOfDocument, []⟩ := by
  obtain ⟨depth, rounds, o, h⟩ := C59.loopV_ends (A := A) hS.progress (fun _ => false) s (joinLF (lines bs))
  refine ⟨depth, rounds, ?_⟩
  rcases split_preprocessed hS hL hA _ hg h with h' | rfl
  · exact absurd h' (C59.never_reported _ _ _ _ h)
  · exact h

/-! ### The content of a block -/

theorem never_place {c : Char} (hc : c ≠ '\uFFFD') : Never grammar S (.rule R.ElementPlaceHolder) (c :: t) := by
  refine yields_rule (yields_act (yields_scope (never_seq (yields_rule (yields_lit.to ?_)))))
  show matchLit ['\uFFFD'] (c :: t) = none
  unfold matchLit
  rw [if_neg hc.symm]

theorem never_place_nil : Never grammar S (.rule R.ElementPlaceHolder) [] :=
  yields_rule (yields_act (yields_scope (yields_seq (u := []) (yields_rule (yields_lit.to rfl)) (never_seq (yields_act (never_plus yields_cls_nil))))))

theorem elements_star (hS : Code S) (hL : LenCode S len) (hA : Obeys A) (hF : alnum S '\uFFFD' = false) (hz : Cut z []) {st : Text} :
    ∀ {bs : List Block}, Good (alnum S) bs → Closed z bs →
    Exactly grammar S A st (.star (.alt (.rule R.ElementPlaceHolder) (.rule R.DocumentFragment))) (written z bs) [.slice (bs.map element)] []
  | [], _, _ => exactly_star_stop (yields_alt_right never_place_nil (yields_rule (by
      rw [C48.fragment_rule]; exact yields_act (yields_scope (never_seq never_NotEOF)))))
  | b :: bs, hg, hc => by
    have ih := elements_star hS hL hA hF hz (st := st) hg.2.2 (closed_tail hc)
    have hx := fun st => fragment hS hL hA hz hg hc (st := st)
    have hp : Never grammar S (.rule R.ElementPlaceHolder) (written z (b :: bs)) := by
      obtain ⟨c, t, e, h⟩ := first_char hz hg hc
      rw [e]
      refine never_place ?_
      rintro rfl
      rcases h with h | h
      · rw [hF] at h; cases h
      · revert h; decide
    exact exactly_star_step (exactly_alt_right hp (hx _)) ih

/-- The content of a block that contains blocks. -/
theorem elements_rule (hS : Code S) (hL : LenCode S len) (hA : Obeys A) (hF : alnum S '\uFFFD' = false) {bs : List Block} (hg : Good (alnum S) bs) {st : Text} :
    Exactly grammar S A st (.rule R.DelimitedBlockElements) (joinLF (lines bs)) [.slice ((trimmed bs).map element)] [] := by
  obtain ⟨z, hz, e, hc⟩ := joined_written bs
  rw [e]
  exact exactly_rule (exactly_act (exactly_scope (exactly_seq exactly_state (exactly_seq (elements_star hS hL hA hF hz (trimmed_good hg) hc)
    (exactly_rule (exactly_notP yields_any_nil))))) (fun s => hA 51 s _ _ _ rfl))

end C62
end Verif
