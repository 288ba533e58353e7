import Verif.Props.Declarations
import Verif.Props.Context
/-!
# C50 — What preprocessing does to a document, from its text alone

The theorems about lines (`Verif.Props.RawForms`, `Verif.Props.Declarations`) with the ones about conditionals (C01).
-/
namespace Verif
namespace C50
open Peg Grammar C49 RawLine
open C35 (NameText)

variable {σ : Type} {S : Sem σ} {elem : σ → Option RawElem} {sects within : σ → Bool}

/-- The lines of a document are read with the grammar. -/
structure Reads (env : Env) (S : Sem σ) (elem : σ → Option RawElem) (sects within : σ → Bool) : Prop where
  code : RawCode S elem sects within
  progress : C45.ChecksProgress S
  special : ∀ s st t, (S.pred 381 s st t).1 = true
  classify : ∀ se wb l, NoEol l → ∃ st s r, sects s = se ∧ within s = wb ∧ Eval grammar S (.rule R.DocumentRawLine) st s l r ∧ env.classify se wb l = read elem r

/-- A line, of at most 65535 bytes, that begins with none of the five directives. -/
structure Untouched (l : Text) : Prop where
  line : NoEol l
  short : utf8Len l ≤ 65535
  free : ∀ k ∈ ["include::", "ifdef::", "ifndef::", "ifeval::[", "endif::"], ¬ k.toList <+: l

/-- The lines declare the attribute, and do not reset it after. -/
def DeclaredBy (al : Ifeval.Class) (n : Text) (ls : List Text) : Prop :=
  ∃ a l b, ls = a ++ l :: b ∧ SimpleDeclaration al n l ∧ ∀ x ∈ b, ¬ Resets al n x

/-- Nothing else looks like a declaration of the attribute. -/
def Clear (al : Ifeval.Class) (n : Text) (ls : List Text) : Prop := ∀ l ∈ ls, Declares al n l → SimpleDeclaration al n l

/-- Is the attribute set by the document? -/
def present (ctx : Ctx) (n : Text) : Prop := (AMap.get ctx.attrs.doc (String.ofList n)).isSome = true

theorem ofList_inj {a b : Text} (h : String.ofList a = String.ofList b) : a = b := by
  have := congrArg String.toList h
  simpa using this

theorem SimpleDeclaration.declares {al : Ifeval.Class} {n l : Text} (h : SimpleDeclaration al n l) : Declares al n l := by
  obtain ⟨hn, rfl | ⟨b, v, hb0, hb, _, _, rfl⟩⟩ := h
  · exact ⟨[], hn, rfl, Or.inl rfl⟩
  · refine ⟨b ++ v, hn, rfl, Or.inr ?_⟩
    cases b with
    | nil => exact absurd rfl hb0
    | cons d b => exact ⟨d, _, rfl, blanks_isBlank hb d (by simp)⟩

theorem Resets.not_declares {al : Ifeval.Class} {n m l : Text} (h0 : al ':' = false) (h1 : al '!' = false) (h : Resets al n l) : ¬ Declares al m l :=
  Form.not_decl (se := false) (wb := false) (e := .reset (String.ofList n) l) h0 h1 ⟨rfl, n, h, rfl⟩

theorem Declares.name {al : Ifeval.Class} {n m l : Text} (h0 : al ':' = false) (h1 : Declares al n l) (h2 : Declares al m l) : n = m := by
  obtain ⟨r1, hn, rfl, _⟩ := h1
  obtain ⟨r2, hm, e, _⟩ := h2
  have k1 := C35.pName_complete al n ':' r1 hn ⟨h0, by decide⟩
  have k2 := C35.pName_complete al m ':' r2 hm ⟨h0, by decide⟩
  rw [(List.cons.inj e).2, k2] at k1
  cases k1
  rfl

theorem Resets.name {al : Ifeval.Class} {n m l : Text} (h0 : al ':' = false) (h1 : al '!' = false) (hn : Resets al n l) (hm : Resets al m l) : n = m := by
  have k1 := (pReset_iff h0 h1).mpr hn
  have k2 := (pReset_iff h0 h1).mpr hm
  rw [k1] at k2
  exact Option.some.inj k2

/-- One line. -/
theorem step_untouched {env : Env} (hE : Reads env S elem sects within) (inc : Ctx → Inclusion → Except Err (Text × List Offset)) (ctx : Ctx) (tr : Tracker)
    (hroot : ctx.sectEnabled = false) {l : Text} (hl : Untouched l) :
    ∃ ctx' tr', C01.stepEv env inc ctx tr l = .ok (.emit l, ctx', tr') ∧ ctx'.sectEnabled = false ∧ ctx'.offsets = ctx.offsets ∧ ctx'.attrs.imm = ctx.attrs.imm ∧
      (AMap.WF ctx.attrs.doc → AMap.WF ctx'.attrs.doc) ∧
      ∀ n, Clear (alnum S) n [l] → (present ctx' n ↔ SimpleDeclaration (alnum S) n l ∨ (present ctx n ∧ ¬ Resets (alnum S) n l)) := by
  obtain ⟨st, s, r, hse, hwb, hr, hcls⟩ := hE.classify ctx.sectEnabled ctx.within l hl.line
  have h0 : alnum S ':' = false := hE.code.cls _ (by decide)
  have h1 : alnum S '!' = false := hE.code.cls _ (by decide)
  -- a line that is neither declaration nor reset
  have other : (∀ n v raw, read elem r ≠ some (.decl n v raw)) → (∀ n raw, read elem r ≠ some (.reset n raw)) →
      ∀ n, (SimpleDeclaration (alnum S) n l ∨ (present ctx n ∧ ¬ Resets (alnum S) n l) ↔ present ctx n) := by
    intro hd hr' n
    have nd : ¬ SimpleDeclaration (alnum S) n l := by
      intro h
      obtain ⟨v, hv⟩ := simple_declares hE.code hE.progress hE.special hl.line hr h
      exact hd _ _ _ hv
    have nr : ¬ Resets (alnum S) n l := by
      intro h
      exact hr' _ _ ((reset_iff hE.code hl.line hr (String.ofList n) l).mpr ⟨rfl, n, h, rfl⟩)
    constructor
    · rintro (h | h)
      · exact absurd h nd
      · exact h.1
    · intro h; exact Or.inr ⟨h, nr⟩
  unfold C01.stepEv
  rw [hcls]
  cases he : read elem r with
  | none =>
    refine ⟨ctx, tr, rfl, hroot, rfl, rfl, id, fun n _ => ?_⟩
    exact (other (by rw [he]; exact fun _ _ _ e => nomatch e) (by rw [he]; exact fun _ _ e => nomatch e) n).symm
  | some e =>
    cases e with
    | decl n v raw =>
      obtain ⟨rfl, m, hd, rfl⟩ := declaration_only hE.code hl.line hr he
      refine ⟨{ ctx with attrs := ctx.attrs.set (String.ofList m) v }, tr, rfl, hroot, rfl, rfl, fun h => AMap.WF_set h _ _, fun n hc => ?_⟩
      unfold present CtxAttrs.set
      dsimp only
      rw [AMap.get_set]
      by_cases hnm : String.ofList m = String.ofList n
      · have := ofList_inj hnm
        subst this
        simp only [if_true, Option.isSome_some, true_iff]
        exact Or.inl (hc raw (by simp) hd)
      · rw [if_neg (by first | exact hnm | exact Ne.symm hnm)]
        have nd : ¬ SimpleDeclaration (alnum S) n raw := fun h => hnm (by rw [Declares.name h0 hd h.declares])
        have nr : ¬ Resets (alnum S) n raw := fun h => h.not_declares h0 h1 hd
        constructor
        · intro h; exact Or.inr ⟨h, nr⟩
        · rintro (h | h)
          · exact absurd h nd
          · exact h.1
    | reset n raw =>
      obtain ⟨rfl, m, hm, rfl⟩ := (reset_iff hE.code hl.line hr n raw).mp he
      refine ⟨{ ctx with attrs := ctx.attrs.unset (String.ofList m) }, tr, rfl, hroot, rfl, rfl, fun h => AMap.WF_del h _, fun n hc => ?_⟩
      unfold present CtxAttrs.unset
      dsimp only
      rw [AMap.get_del]
      have nd : ¬ SimpleDeclaration (alnum S) n raw := fun h => hm.not_declares h0 h1 h.declares
      by_cases hnm : String.ofList m = String.ofList n
      · have := ofList_inj hnm
        subst this
        simp only [if_true]
        constructor
        · intro h; cases h
        · rintro (h | h)
          · exact absurd h nd
          · exact absurd hm h.2
      · rw [if_neg (by first | exact hnm | exact Ne.symm hnm)]
        have nr : ¬ Resets (alnum S) n raw := fun h => hnm (by rw [Resets.name h0 h1 hm h])
        constructor
        · intro h; exact Or.inr ⟨h, nr⟩
        · rintro (h | h)
          · exact absurd h nd
          · exact h.1
    | incl i => exact absurd (inclusion_only hE.code hl.line hr he) (hl.free _ (by decide))
    | sect n raw =>
      have := (title_iff hE.code hl.line hr n raw).mp he
      rw [hse, hroot] at this
      cases this.2.1
    | delim kind n raw =>
      obtain ⟨rfl, _⟩ := (delimiter_iff hE.code hl.line hr kind n raw).mp he
      refine ⟨{ ctx with within := !(track tr kind n).isEmpty }, track tr kind n, rfl, hroot, rfl, rfl, id, fun n _ => ?_⟩
      exact (other (by rw [he]; exact fun _ _ _ e => nomatch e) (by rw [he]; exact fun _ _ e => nomatch e) n).symm
    | endif =>
      obtain ⟨n, c, hd⟩ := (endif_iff hE.code hl.line hr).mp he
      exact absurd hd.start (hl.free _ (by decide))
    | cond c =>
      cases c with
      | ifdef n c =>
        obtain ⟨nm, ct, _, hd, _⟩ := (ifdef_iff hE.code hl.line hr n c).mp he
        exact absurd hd.start (hl.free _ (by decide))
      | ifndef n c =>
        obtain ⟨nm, ct, _, hd, _⟩ := (ifndef_iff hE.code hl.line hr n c).mp he
        exact absurd hd.start (hl.free _ (by decide))
      | ifeval a op b =>
        have h : Form (alnum S) (sects s) (within s) l (.cond (.ifeval a op b)) := (read_iff hE.code hl.line hr (.cond (.ifeval a op b)) (by intro _ _ _ e; cases e) (by intro _ e; cases e)).mp he
        exact absurd (pIfeval_start (l := l) h).1 (hl.free _ (by decide))

theorem DeclaredBy.cons {al : Ifeval.Class} {n l : Text} {ls : List Text} :
    DeclaredBy al n (l :: ls) ↔ DeclaredBy al n ls ∨ (SimpleDeclaration al n l ∧ ∀ x ∈ ls, ¬ Resets al n x) := by
  constructor
  · rintro ⟨a, x, b, e, hx, hb⟩
    cases a with
    | nil => cases e; exact Or.inr ⟨hx, hb⟩
    | cons y a => cases e; exact Or.inl ⟨a, x, b, rfl, hx, hb⟩
  · rintro (⟨a, x, b, rfl, hx, hb⟩ | ⟨hx, hb⟩)
    · exact ⟨l :: a, x, b, rfl, hx, hb⟩
    · exact ⟨[], l, ls, rfl, hx, hb⟩

/-- Lines that are no directives. -/
theorem run_untouched {env : Env} (hE : Reads env S elem sects within) (inc : Ctx → Inclusion → Except Err (Text × List Offset)) :
    ∀ (ls : List Text) (ctx : Ctx) (tr : Tracker), ctx.sectEnabled = false → (∀ l ∈ ls, Untouched l) →
    ∃ ctx' tr', C01.runEvs env inc ctx tr ls = .ok (ls.map .emit, ctx', tr') ∧ ctx'.sectEnabled = false ∧ ctx'.offsets = ctx.offsets ∧ ctx'.attrs.imm = ctx.attrs.imm ∧
      (AMap.WF ctx.attrs.doc → AMap.WF ctx'.attrs.doc) ∧
      ∀ n, Clear (alnum S) n ls → (present ctx' n ↔ DeclaredBy (alnum S) n ls ∨ (present ctx n ∧ ∀ l ∈ ls, ¬ Resets (alnum S) n l)) := by
  intro ls
  induction ls with
  | nil =>
    intro ctx tr h _
    refine ⟨ctx, tr, rfl, h, rfl, rfl, id, fun n _ => ⟨fun h => Or.inr ⟨h, (fun _ h => nomatch h)⟩, ?_⟩⟩
    rintro (⟨a, x, b, e, _⟩ | h)
    · cases a <;> cases e
    · exact h.1
  | cons l ls ih =>
    intro ctx tr hroot hu
    obtain ⟨ctx1, tr1, e1, r1, o1, i1, w1, p1⟩ := step_untouched hE inc ctx tr hroot (hu l (by simp))
    obtain ⟨ctx2, tr2, e2, r2, o2, i2, w2, p2⟩ := ih ctx1 tr1 r1 (fun x hx => hu x (by simp [hx]))
    refine ⟨ctx2, tr2, ?_, r2, o2.trans o1, i2.trans i1, fun h => w2 (w1 h), fun n hc => ?_⟩
    · unfold C01.runEvs
      rw [e1]
      dsimp only
      rw [e2]
      rfl
    · have q1 := p1 n (fun x hx hd => hc x (by rw [List.mem_singleton.mp hx]; simp) hd)
      have q2 := p2 n (fun x hx hd => hc x (by simp [hx]) hd)
      rw [q2, q1, DeclaredBy.cons]
      constructor
      · rintro (h | ⟨h | h, hr⟩)
        · exact Or.inl (Or.inl h)
        · exact Or.inl (Or.inr ⟨h, hr⟩)
        · refine Or.inr ⟨h.1, ?_⟩
          intro x hx
          rcases List.mem_cons.mp hx with rfl | hx
          · exact h.2
          · exact hr x hx
      · rintro ((h | h) | ⟨h, hr⟩)
        · exact Or.inl h
        · exact Or.inr ⟨Or.inl h.1, h.2⟩
        · exact Or.inr ⟨Or.inr ⟨h, hr l (by simp)⟩, fun x hx => hr x (by simp [hx])⟩

theorem runEvs_append {env : Env} (inc : Ctx → Inclusion → Except Err (Text × List Offset)) : ∀ (a b : List Text) (ctx : Ctx) (tr : Tracker) {es : List C01.Ev} {ctx' : Ctx} {tr' : Tracker},
    C01.runEvs env inc ctx tr a = .ok (es, ctx', tr') →
    C01.runEvs env inc ctx tr (a ++ b) = match C01.runEvs env inc ctx' tr' b with
      | .error e => .error e
      | .ok (es', c, t) => .ok (es ++ es', c, t) := by
  intro a
  induction a with
  | nil =>
    intro b ctx tr es ctx' tr' h
    cases h
    rw [List.nil_append]
    cases C01.runEvs env inc ctx tr b with
    | error e => rfl
    | ok x => obtain ⟨x, y, z⟩ := x; rfl
  | cons l a ih =>
    intro b ctx tr es ctx' tr' h
    unfold C01.runEvs at h
    rw [List.cons_append]
    conv => lhs; unfold C01.runEvs
    cases hs : C01.stepEv env inc ctx tr l with
    | error e => rw [hs] at h; cases h
    | ok x =>
      obtain ⟨ev, c1, t1⟩ := x
      rw [hs] at h
      dsimp only at h ⊢
      cases hr : C01.runEvs env inc c1 t1 a with
      | error e => rw [hr] at h; cases h
      | ok y =>
        obtain ⟨es1, c2, t2⟩ := y
        rw [hr] at h
        cases h
        rw [ih b c1 t1 hr]
        cases C01.runEvs env inc ctx' tr' b with
        | error e => rfl
        | ok x => obtain ⟨x, y, z⟩ := x; rfl

theorem untouched_scan {ls : List Text} (h : ∀ l ∈ ls, NoEol l ∧ utf8Len l ≤ 65535) : scanLines (unlines ls) = ls := by
  have hok : ∀ l ∈ ls, C02.OkLine l := by
    intro l hl
    refine ⟨fun hn => ?_, fun hr => ?_, (h l hl).2⟩
    · have := (h l hl).1 _ hn; cases this
    · have := (h l hl).1 _ (List.mem_of_getLast? hr); cases this
  have hcr : ls.map dropCR = ls := by
    conv => rhs; rw [← List.map_id ls]
    exact List.map_congr_left (fun l hl => dropCR_of_not_suffix l (hok l hl).2.1)
  have hf : ∀ l ∈ ls, fits l = true := fun l hl => (C02.fits_iff l).2 (hok l hl).2.2
  rw [C02.scanLines_of_phys (physLines_unlines ls (fun l hl => (hok l hl).1)) hf, hcr]

/-- **C50**: a document none of whose lines begins with one of the five directives is not changed. -/
theorem document_unchanged {env : Env} (hE : Reads env S elem sects within) (n : Nat) (ctx : Ctx) (hroot : ctx.sectEnabled = false) (ls : List Text) (h : ∀ l ∈ ls, Untouched l) :
    preprocess env (n + 1) ctx (unlines ls) = .ok (joinLF ls, ctx.offsets) := by
  obtain ⟨ctx', tr', e, _, ho, _⟩ := run_untouched hE (includeFile env (preprocess env n)) ls ctx [] hroot h
  rw [C01.preprocess_eq, untouched_scan (fun l hl => ⟨(h l hl).line, (h l hl).short⟩), e]
  dsimp only
  rw [C02.visible_emits, ho]

/-! ### Conditions -/

/-- The attributes that conditions look at. -/
theorem all_isSome {a : CtxAttrs} (hd : AMap.WF a.doc) (hi : AMap.WF a.imm) (n : Text) :
    (AMap.get a.all (String.ofList n)).isSome = true ↔ (AMap.get a.imm (String.ofList n)).isSome = true ∨ (AMap.get a.doc (String.ofList n)).isSome = true := by
  unfold CtxAttrs.all
  rw [AMap.get_setAll _ hi, AMap.get_setAll _ hd, AMap.get_nil]
  cases AMap.get a.imm (String.ofList n) <;> cases AMap.get a.doc (String.ofList n) <;> simp

theorem chunks_emits (ls : List Text) (b : Bool) : C01.chunks [b] (ls.map .emit) = if b then ls else [] := by
  induction ls with
  | nil => cases b <;> rfl
  | cons l ls ih =>
    rw [List.map_cons]
    unfold C01.chunks
    rw [ih]
    cases b <;> rfl

theorem stack_emits (ls : List Text) : ∀ s : Conds, (ls.map C01.Ev.emit).foldl C01.evStack s = s := by
  induction ls with
  | nil => intro s; rfl
  | cons l ls ih => intro s; exact ih s

theorem Directive.noEol {kw : String} {n c l : Text} (hk : NoEol kw.toList) (h : Directive kw n c l) : NoEol l := by
  obtain ⟨hn, hc, b, hb, rfl⟩ := h
  intro d hd
  simp only [List.mem_append, List.mem_singleton] at hd
  rcases hd with ((((hd | hd) | rfl) | hd) | rfl) | hd
  · exact hk d hd
  · have := hn d hd
    simp only [List.mem_cons, List.not_mem_nil, or_false, not_or] at this
    simp [isEol, this.1, this.2.1]
  · rfl
  · have := hc d hd
    simp only [List.mem_cons, List.not_mem_nil, or_false, not_or] at this
    simp [isEol, this.1, this.2.1]
  · rfl
  · rcases hb d hd with rfl | rfl <;> rfl

/-- The keyword of a condition upon an attribute. -/
def keyword : Bool → String
  | true => "ifdef::"
  | false => "ifndef::"

/-- **C50**: the lines between `ifdef::name[]` and the next `endif` are kept if and only if the attribute is given by the caller or declared by the lines before (and not reset after); with
`ifndef::name[]`, if and only if it is not. The other lines are kept, and the directives are not. -/
theorem condition_document {env : Env} (hE : Reads env S elem sects within) (k : Nat) (file : Text) (api : AMap Val) (hapi : AMap.WF api) (positive : Bool)
    {name opening closing nm ct : Text} {before body after : List Text} (hname : name ≠ [])
    (ho : Directive (keyword positive) name [] opening) (hc : Directive "endif::" nm ct closing) (hos : utf8Len opening ≤ 65535) (hcs : utf8Len closing ≤ 65535)
    (h1 : ∀ l ∈ before, Untouched l) (h2 : ∀ l ∈ body, Untouched l) (h3 : ∀ l ∈ after, Untouched l) (hclear : Clear (alnum S) name before) :
    ∃ kept, (((AMap.get api (String.ofList name)).isSome = true ∨ DeclaredBy (alnum S) name before) → kept = if positive then body else []) ∧
      (¬ ((AMap.get api (String.ofList name)).isSome = true ∨ DeclaredBy (alnum S) name before) → kept = if positive then [] else body) ∧
      preprocess env (k + 1) (rootCtx file api) (unlines (before ++ opening :: (body ++ closing :: after))) = .ok (joinLF (before ++ kept ++ after), []) := by
  have hol : NoEol opening := ho.noEol (by cases positive <;> (unfold NoEol; decide))
  have hcl : NoEol closing := hc.noEol (by unfold NoEol; decide)
  have hscan : scanLines (unlines (before ++ opening :: (body ++ closing :: after))) = before ++ opening :: (body ++ closing :: after) := by
    refine untouched_scan ?_
    intro l hl
    simp only [List.mem_append, List.mem_cons] at hl
    rcases hl with hl | rfl | hl | rfl | hl
    · exact ⟨(h1 l hl).line, (h1 l hl).short⟩
    · exact ⟨hol, hos⟩
    · exact ⟨(h2 l hl).line, (h2 l hl).short⟩
    · exact ⟨hcl, hcs⟩
    · exact ⟨(h3 l hl).line, (h3 l hl).short⟩
  obtain ⟨ctx1, tr1, e1, r1, o1, i1, w1, p1⟩ := run_untouched hE (includeFile env (preprocess env k)) before (rootCtx file api) [] rfl h1
  -- the opening line
  have hop : C01.stepEv env (includeFile env (preprocess env k)) ctx1 tr1 opening =
      .ok (.opn (if positive then (AMap.get ctx1.attrs.all (String.ofList name)).isSome else !(AMap.get ctx1.attrs.all (String.ofList name)).isSome), ctx1, tr1) := by
    obtain ⟨st, s, r, _, _, hr, hcls⟩ := hE.classify ctx1.sectEnabled ctx1.within opening hol
    unfold C01.stepEv
    rw [hcls]
    cases positive with
    | true =>
      rw [(ifdef_iff hE.code hol hr (String.ofList name) none).mpr ⟨name, [], hname, ho, rfl, rfl⟩]
      rfl
    | false =>
      rw [(ifndef_iff hE.code hol hr (String.ofList name) none).mpr ⟨name, [], hname, ho, rfl, rfl⟩]
      rfl
  obtain ⟨ctx2, tr2, e2, r2, o2, _⟩ := run_untouched hE (includeFile env (preprocess env k)) body ctx1 tr1 r1 h2
  have hcp : C01.stepEv env (includeFile env (preprocess env k)) ctx2 tr2 closing = .ok (.cls, ctx2, tr2) := by
    obtain ⟨st, s, r, _, _, hr, hcls⟩ := hE.classify ctx2.sectEnabled ctx2.within closing hcl
    unfold C01.stepEv
    rw [hcls, (endif_iff hE.code hcl hr).mpr ⟨nm, ct, hc⟩]
  obtain ⟨ctx3, tr3, e3, r3, o3, _⟩ := run_untouched hE (includeFile env (preprocess env k)) after ctx2 tr2 r2 h3
  have hb : C01.runEvs env (includeFile env (preprocess env k)) ctx1 tr1 (opening :: (body ++ closing :: after)) =
      .ok (.opn (if positive then (AMap.get ctx1.attrs.all (String.ofList name)).isSome else !(AMap.get ctx1.attrs.all (String.ofList name)).isSome) :: (body.map .emit ++ .cls :: after.map .emit), ctx3, tr3) := by
    unfold C01.runEvs
    rw [hop]
    dsimp only
    rw [runEvs_append _ _ _ _ _ e2]
    unfold C01.runEvs
    rw [hcp]
    dsimp only
    rw [e3]
  have hval := all_isSome (w1 List.nodup_nil) (by rw [i1]; exact hapi) name
  have hdef : (AMap.get ctx1.attrs.all (String.ofList name)).isSome = true ↔ (AMap.get api (String.ofList name)).isSome = true ∨ DeclaredBy (alnum S) name before := by
    rw [hval, i1]
    have := p1 name hclear
    unfold present at this
    rw [this]
    constructor
    · rintro (h | h | h)
      · exact Or.inl h
      · exact Or.inr h
      · cases h.1
    · rintro (h | h)
      · exact Or.inl h
      · exact Or.inr (Or.inl h)
  refine ⟨if (if positive then (AMap.get ctx1.attrs.all (String.ofList name)).isSome else !(AMap.get ctx1.attrs.all (String.ofList name)).isSome) then body else [], ?_, ?_, ?_⟩
  · intro h
    rw [hdef.mpr h]
    cases positive <;> rfl
  · intro h
    have : (AMap.get ctx1.attrs.all (String.ofList name)).isSome = false := by
      cases hx : (AMap.get ctx1.attrs.all (String.ofList name)).isSome with
      | false => rfl
      | true => exact absurd (hdef.mp hx) h
    rw [this]
    cases positive <;> rfl
  · rw [C01.preprocess_eq, hscan, runEvs_append _ _ _ _ _ e1, hb]
    dsimp only
    rw [o3, o2, o1, ← C01.chunks_eq_visible, C01.chunks_append, stack_emits, C01.chunks_eq_visible, C02.visible_emits]
    generalize (if positive then (AMap.get ctx1.attrs.all (String.ofList name)).isSome else !(AMap.get ctx1.attrs.all (String.ofList name)).isSome) = v
    have : C01.chunks [] (.opn v :: (body.map .emit ++ .cls :: after.map .emit)) = (if v then body else []) ++ after := by
      show C01.chunks [v] (body.map .emit ++ .cls :: after.map .emit) = _
      rw [C01.chunks_append, stack_emits, chunks_emits]
      show _ ++ C01.chunks [] (after.map .emit) = _
      rw [C01.chunks_eq_visible, C02.visible_emits]
    rw [this, List.append_assoc]
    rfl

/-- **C50**: a condition upon something that is not the name of an attribute (a letter, a number or an underscore, then letters, numbers and hyphens) that the caller has not set: whatever the
document declares before it, the lines up to the `endif` are dropped. -/
theorem no_such_name {env : Env} (hE : Reads env S elem sects within) (k : Nat) (file : Text) (api : AMap Val) (hapi : AMap.WF api)
    {name opening closing nm ct : Text} {before body after : List Text} (hname : name ≠ []) (hbad : ¬ NameText (alnum S) name) (hna : AMap.get api (String.ofList name) = none)
    (ho : Directive "ifdef::" name [] opening) (hc : Directive "endif::" nm ct closing) (hos : utf8Len opening ≤ 65535) (hcs : utf8Len closing ≤ 65535)
    (h1 : ∀ l ∈ before, Untouched l) (h2 : ∀ l ∈ body, Untouched l) (h3 : ∀ l ∈ after, Untouched l) :
    preprocess env (k + 1) (rootCtx file api) (unlines (before ++ opening :: (body ++ closing :: after))) = .ok (joinLF (before ++ after), []) := by
  have hno : ∀ l, ¬ Declares (alnum S) name l := fun l ⟨_, h, _⟩ => hbad h
  obtain ⟨kept, _, e, h⟩ := condition_document hE k file api hapi true (name := name) hname ho hc hos hcs h1 h2 h3 (fun l _ h => absurd h (hno l))
  rw [h, e ?_]
  · simp
  · rintro (h | ⟨_, l, _, _, h, _⟩)
    · rw [hna] at h; cases h
    · exact hno l h.declares

/-- **Finding** (C50): `ifdef::a,b[]` does not test two attributes: the lines up to the `endif` are dropped (unless the caller gives an attribute with the name `a,b`). -/
theorem finding_comma {env : Env} (hE : Reads env S elem sects within) (k : Nat) (file : Text) (api : AMap Val) (hapi : AMap.WF api)
    {name opening closing nm ct : Text} {before body after : List Text} (hname : ',' ∈ name) (hna : AMap.get api (String.ofList name) = none)
    (ho : Directive "ifdef::" name [] opening) (hc : Directive "endif::" nm ct closing) (hos : utf8Len opening ≤ 65535) (hcs : utf8Len closing ≤ 65535)
    (h1 : ∀ l ∈ before, Untouched l) (h2 : ∀ l ∈ body, Untouched l) (h3 : ∀ l ∈ after, Untouched l) :
    preprocess env (k + 1) (rootCtx file api) (unlines (before ++ opening :: (body ++ closing :: after))) = .ok (joinLF (before ++ after), []) := by
  have hal : alnum S ',' = false := hE.code.cls _ (by decide)
  refine no_such_name hE k file api hapi (List.ne_nil_of_mem hname) ?_ hna ho hc hos hcs h1 h2 h3
  rintro ⟨c, t, rfl, hc, ht⟩
  rcases List.mem_cons.mp hname with e | h
  · subst e
    rcases hc with hc | hc
    · rw [hal] at hc; cases hc
    · cases hc
  · rcases ht _ h with h | h
    · rw [hal] at h; cases h
    · revert h; decide

/-- **Finding** (C50): an attribute with an underscore within its name, as in `:my_attr: 1`, is never set by the document: the lines from `ifdef::my_attr[]` to the `endif` are dropped. -/
theorem finding_underscore {env : Env} (hE : Reads env S elem sects within) (k : Nat) (file : Text) (api : AMap Val) (hapi : AMap.WF api)
    {x y opening closing nm ct : Text} {before body after : List Text} (hx : x ≠ []) (hna : AMap.get api (String.ofList (x ++ '_' :: y)) = none)
    (ho : Directive "ifdef::" (x ++ '_' :: y) [] opening) (hc : Directive "endif::" nm ct closing) (hos : utf8Len opening ≤ 65535) (hcs : utf8Len closing ≤ 65535)
    (h1 : ∀ l ∈ before, Untouched l) (h2 : ∀ l ∈ body, Untouched l) (h3 : ∀ l ∈ after, Untouched l) :
    preprocess env (k + 1) (rootCtx file api) (unlines (before ++ opening :: (body ++ closing :: after))) = .ok (joinLF (before ++ after), []) := by
  have hal : alnum S '_' = false := hE.code.cls _ (by decide)
  refine no_such_name hE k file api hapi (by simp) ?_ hna ho hc hos hcs h1 h2 h3
  rintro ⟨c, t, e, hc, ht⟩
  cases x with
  | nil => exact hx rfl
  | cons d x =>
    cases e
    rcases ht '_' (by simp) with h | h
    · rw [hal] at h; cases h
    · revert h; decide

/-! ### The hypotheses are met -/

/-- What the line is read as with `rawSem`. -/
noncomputable def rawEnv : Env where
  classify se wb l := read Prod.fst (Classical.choose (C45.exp_ends rawSem rawSem_progress (.rule R.DocumentRawLine) rfl l (none, se, wb) l))
  resolve _ p := p
  fs _ := none
  alnum := rawAlnum
  showVal _ := []

theorem rawEnv_reads : Reads rawEnv rawSem Prod.fst (fun s => s.2.1) (fun s => s.2.2) where
  code := rawSem_code
  progress := rawSem_progress
  special := rawSem_special
  classify se wb l _ := ⟨l, (none, se, wb), _, rfl, rfl, Classical.choose_spec (C45.exp_ends rawSem rawSem_progress (.rule R.DocumentRawLine) rfl l (none, se, wb) l), rfl⟩

theorem untouched_of {l : Text} (h : (l.all (fun c => !isEol c) && decide (utf8Len l ≤ 65535) && ["include::", "ifdef::", "ifndef::", "ifeval::[", "endif::"].all (fun k => !k.toList.isPrefixOf l)) = true) : Untouched l := by
  simp only [Bool.and_eq_true, List.all_eq_true, Bool.not_eq_true', decide_eq_true_eq] at h
  refine ⟨h.1.1, h.1.2, fun k hk hp => ?_⟩
  have := h.2 k hk
  rw [List.isPrefixOf_iff_prefix.mpr hp] at this
  cases this

-- a document with a declaration, a delimited block, and a condition
example : preprocess rawEnv 1 (rootCtx [] []) (unlines ([":x: 1".toList, "----".toList] ++ "ifdef::x[]".toList :: (["kept".toList] ++ "endif::[]".toList :: ["----".toList]))) =
    .ok (":x: 1\n----\nkept\n----".toList, []) := by
  have hu : ∀ l ∈ [":x: 1".toList, "----".toList, "kept".toList], Untouched l := by
    intro l hl
    simp only [List.mem_cons, List.not_mem_nil, or_false] at hl
    rcases hl with rfl | rfl | rfl <;> exact untouched_of (by decide)
  have hx : SimpleDeclaration (alnum rawSem) "x".toList ":x: 1".toList :=
    ⟨⟨'x', [], rfl, Or.inl (by decide), (fun _ h => nomatch h)⟩, Or.inr ⟨[' '], "1".toList, by decide, by intro c hc; exact Or.inl (List.mem_singleton.mp hc), by decide,
      by intro c hc; cases hc; decide, rfl⟩⟩
  obtain ⟨kept, e, _, h⟩ := condition_document rawEnv_reads 0 [] [] List.nodup_nil true (name := "x".toList) (nm := []) (ct := []) (opening := "ifdef::x[]".toList) (closing := "endif::[]".toList)
    (before := [":x: 1".toList, "----".toList]) (body := ["kept".toList]) (after := ["----".toList]) (by decide)
    ⟨by decide, by decide, [], (fun _ h => nomatch h), rfl⟩ ⟨by decide, by decide, [], (fun _ h => nomatch h), rfl⟩ (by decide) (by decide)
    (fun l hl => hu l (by revert hl; simp; tauto)) (fun l hl => hu l (by revert hl; simp; tauto)) (fun l hl => hu l (by revert hl; simp; tauto)) (by
      intro l hl hd
      simp only [List.mem_cons, List.not_mem_nil, or_false] at hl
      rcases hl with rfl | rfl
      · exact hx
      · obtain ⟨r, _, e, _⟩ := hd
        cases e)
  rw [h, e (Or.inr ⟨[], _, ["----".toList], rfl, hx, ?_⟩)]
  · rfl
  · intro l hl
    rw [List.mem_singleton.mp hl]
    rintro ⟨_, b, _, e | e⟩ <;> cases e

end C50
end Verif
