import Verif.Spec.Chosen

/-!
# C71 — Conditions, nested to any depth: the lines that are chosen
-/
namespace Verif
namespace C71
open Chosen
open C50 (Reads Directive Untouched present)
open C01 (Ev stepEv runEvs chunks evStack)

/-- The attributes given by the caller. -/
def given (api : AMap Val) (n : Text) : Bool := (AMap.get api (String.ofList n)).isSome

/-- The context: the attributes in `set` are set by the document. -/
structure Attributes (api : AMap Val) (set : List Text) (ctx : Verif.Ctx) : Prop where
  imm : ctx.attrs.imm = api
  wf : AMap.WF ctx.attrs.doc
  set : ∀ n, present ctx n ↔ n ∈ set

/-- And the file is not included by another one. -/
structure Knows (api : AMap Val) (set : List Text) (ctx : Verif.Ctx) : Prop extends Attributes api set ctx where
  root : ctx.sectEnabled = false

theorem eval_snoc (s : Conds) (b : Bool) : condsEval (s ++ [b]) = (condsEval s && b) := by
  unfold condsEval
  simp

section
variable {σ : Type} {S : Peg.Sem σ} {elem : σ → Option RawElem} {sects within : σ → Bool} {env : Env} {api : AMap Val}

/-- What the lines amount to. -/
structure Amounts (env : Env) (inc : Verif.Ctx → Inclusion → Except Verif.Err (Text × List Offset)) (api : AMap Val) (ctx : Verif.Ctx) (tr : Tracker) (ls : List Text)
    (set' : List Text) (out : List Text) (evs : List Ev) (ctx' : Verif.Ctx) (tr' : Tracker) : Prop where
  runs : runEvs env inc ctx tr ls = .ok (evs, ctx', tr')
  knows : Knows api set' ctx'
  offsets : ctx'.offsets = ctx.offsets
  stack : ∀ s, evs.foldl evStack s = s
  chunks : ∀ s, chunks s evs = if condsEval s then out else []

theorem directive_of {kw n c g : Text} {k : String} (hk : k.toList = kw) (h : DirectiveOk kw n c g) : Directive k n c (directive kw n c g) := by
  subst hk
  exact ⟨h.name, h.content, g, h.gap, rfl⟩

/-- One line that is no directive. -/
theorem amounts_line (hE : Reads env S elem sects within) (inc : Verif.Ctx → Inclusion → Except Verif.Err (Text × List Offset)) {set set' : List Text} {ctx : Verif.Ctx} (tr : Tracker)
    (hk : Knows api set ctx) {l : Text} (hl : Untouched l) (hclear : ∀ n, C50.Declares (C50.alnum S) n l → C50.SimpleDeclaration (C50.alnum S) n l)
    (hset : ∀ n, n ∈ set' ↔ C50.SimpleDeclaration (C50.alnum S) n l ∨ (n ∈ set ∧ ¬ C50.Resets (C50.alnum S) n l)) :
    ∃ evs ctx' tr', Amounts env inc api ctx tr [l] set' [l] evs ctx' tr' := by
  obtain ⟨ctx', tr', e, r, o, i, w, p⟩ := C50.step_untouched hE inc ctx tr hk.root hl
  refine ⟨[.emit l], ctx', tr', ⟨?_, ⟨⟨i.trans hk.imm, w hk.wf, fun n => ?_⟩, r⟩, o, fun _ => rfl, fun _ => rfl⟩⟩
  · unfold C01.runEvs
    rw [e]
    rfl
  · rw [p n (fun x hx hd => by rw [List.mem_singleton.mp hx] at hd ⊢; exact hclear n hd), hset, hk.set]

theorem holds_eq {set : List Text} {ctx : Verif.Ctx} (hapi : AMap.WF api) (hk : Attributes api set ctx) (n : Text) (b : Bool) :
    holds (given api) set b n = if b then (AMap.get ctx.attrs.all (String.ofList n)).isSome else !(AMap.get ctx.attrs.all (String.ofList n)).isSome := by
  have h := C50.all_isSome hk.wf (by rw [hk.imm]; exact hapi) n
  rw [hk.imm] at h
  have h2 : (AMap.get ctx.attrs.all (String.ofList n)).isSome = (given api n || set.contains n) := by
    rw [Bool.eq_iff_iff, h, Bool.or_eq_true, List.contains_iff_mem]
    exact or_congr Iff.rfl (hk.set n)
  unfold holds
  rw [h2]
  cases b <;> cases (given api n || set.contains n) <;> rfl

/-- The line of a condition. -/
theorem step_condition (hE : Reads env S elem sects within) (inc : Verif.Ctx → Inclusion → Except Verif.Err (Text × List Offset)) {set : List Text} {ctx : Verif.Ctx} (tr : Tracker)
    (hapi : AMap.WF api) (hk : Attributes api set ctx) {p : Bool} {n c g : Text} (hn : n ≠ []) (hd : DirectiveOk (keyword p) n c g) :
    stepEv env inc ctx tr (directive (keyword p) n c g) =
      .ok (if c = [] then .opn (holds (given api) set p n) else if holds (given api) set p n then .emit c else .skip, ctx, tr) := by
  have hd' := directive_of (k := C50.keyword p) (by cases p <;> rfl) hd
  have hl : C50.NoEol (directive (keyword p) n c g) := hd'.noEol (by cases p <;> (unfold C50.NoEol; decide))
  obtain ⟨st, s, r, _, _, hr, hcls⟩ := hE.classify ctx.sectEnabled ctx.within _ hl
  unfold C01.stepEv
  rw [hcls, holds_eq hapi hk]
  cases p with
  | true =>
    rw [(C50.ifdef_iff hE.code hl hr (String.ofList n) (C50.contentOf c)).mpr ⟨n, c, hn, hd', rfl, rfl⟩]
    by_cases hc : c = []
    · subst hc; rfl
    · show (match C50.contentOf c with | some t => _ | none => _) = _
      unfold C50.contentOf
      rw [if_neg hc, if_neg hc]
      rfl
  | false =>
    rw [(C50.ifndef_iff hE.code hl hr (String.ofList n) (C50.contentOf c)).mpr ⟨n, c, hn, hd', rfl, rfl⟩]
    by_cases hc : c = []
    · subst hc; rfl
    · show (match C50.contentOf c with | some t => _ | none => _) = _
      unfold C50.contentOf
      rw [if_neg hc, if_neg hc]
      rfl

theorem step_end (hE : Reads env S elem sects within) (inc : Verif.Ctx → Inclusion → Except Verif.Err (Text × List Offset)) (ctx : Verif.Ctx) (tr : Tracker)
    {n c g : Text} (hd : DirectiveOk "endif::".toList n c g) : stepEv env inc ctx tr (directive "endif::".toList n c g) = .ok (.cls, ctx, tr) := by
  have hd' := directive_of (k := "endif::") rfl hd
  have hl : C50.NoEol (directive "endif::".toList n c g) := hd'.noEol (by unfold C50.NoEol; decide)
  obtain ⟨st, s, r, _, _, hr, hcls⟩ := hE.classify ctx.sectEnabled ctx.within _ hl
  unfold C01.stepEv
  rw [hcls, (C50.endif_iff hE.code hl hr).mpr ⟨n, c, hd'⟩]

theorem amounts_append {inc : Verif.Ctx → Inclusion → Except Verif.Err (Text × List Offset)} {ctx ctx1 ctx2 : Verif.Ctx} {tr tr1 tr2 : Tracker} {a b : List Text} {set1 set2 : List Text} {x y : List Text}
    {e1 e2 : List Ev} (h1 : Amounts env inc api ctx tr a set1 x e1 ctx1 tr1) (h2 : Amounts env inc api ctx1 tr1 b set2 y e2 ctx2 tr2) :
    Amounts env inc api ctx tr (a ++ b) set2 (x ++ y) (e1 ++ e2) ctx2 tr2 where
  runs := by rw [C50.runEvs_append _ _ _ _ _ h1.runs, h2.runs]
  knows := h2.knows
  offsets := h2.offsets.trans h1.offsets
  stack s := by rw [List.foldl_append, h1.stack, h2.stack]
  chunks s := by
    rw [C01.chunks_append, h1.stack, h1.chunks, h2.chunks]
    cases condsEval s <;> rfl

theorem not_colon {al : Char → Bool} {l : Text} (h : l.head? ≠ some ':') (n : Text) : ¬ C50.Declares al n l ∧ ¬ C50.SimpleDeclaration al n l ∧ ¬ C50.Resets al n l := by
  have h1 : ¬ C50.Declares al n l := by
    rintro ⟨r, _, rfl, _⟩
    exact h rfl
  refine ⟨h1, fun hs => h1 hs.declares, ?_⟩
  rintro ⟨_, b, _, rfl | rfl⟩ <;> exact h rfl

mutual
theorem part_amounts (hE : Reads env S elem sects within) (hapi : AMap.WF api) (inc : Verif.Ctx → Inclusion → Except Verif.Err (Text × List Offset)) :
    ∀ (p : Part), p.Ok (C50.alnum S) → ∀ (set : List Text) (ctx : Verif.Ctx) (tr : Tracker), Knows api set ctx →
    ∃ evs ctx' tr', Amounts env inc api ctx tr p.written (p.after set) (p.chosen (given api) set) evs ctx' tr'
  | .line l, h, set, ctx, tr, hk => by
    refine amounts_line hE inc tr hk h.1 (fun n hd => absurd hd (not_colon h.2 n).1) (fun n => ?_)
    constructor
    · exact fun hm => .inr ⟨hm, (not_colon h.2 n).2.2⟩
    · rintro (hs | hm)
      · exact absurd hs (not_colon h.2 n).2.1
      · exact hm.1
  | .declare m l, h, set, ctx, tr, hk => by
    have h0 : C50.alnum S ':' = false := hE.code.cls _ (by decide)
    have h1 : C50.alnum S '!' = false := hE.code.cls _ (by decide)
    refine amounts_line hE inc tr hk h.1 (fun n hd => ?_) (fun n => ?_)
    · rw [C50.Declares.name h0 hd h.2.declares]; exact h.2
    · show n ∈ m :: set ↔ _
      rw [List.mem_cons]
      constructor
      · rintro (rfl | hm)
        · exact .inl h.2
        · exact .inr ⟨hm, fun hr => hr.not_declares h0 h1 h.2.declares⟩
      · rintro (hs | hm)
        · exact .inl (C50.Declares.name h0 hs.declares h.2.declares)
        · exact .inr hm.1
  | .reset m l, h, set, ctx, tr, hk => by
    have h0 : C50.alnum S ':' = false := hE.code.cls _ (by decide)
    have h1 : C50.alnum S '!' = false := hE.code.cls _ (by decide)
    refine amounts_line hE inc tr hk h.1 (fun n hd => absurd hd (h.2.not_declares h0 h1)) (fun n => ?_)
    show n ∈ set.filter (· ≠ m) ↔ _
    rw [List.mem_filter, decide_eq_true_eq]
    constructor
    · rintro ⟨hm, hne⟩
      exact .inr ⟨hm, fun hr => hne (C50.Resets.name h0 h1 hr h.2)⟩
    · rintro (hs | hm)
      · exact absurd hs.declares (h.2.not_declares h0 h1)
      · exact ⟨hm.1, fun e => hm.2 (by rw [e]; exact h.2)⟩
  | .when p n g ps a g', h, set, ctx, tr, hk => by
    obtain ⟨hn, hd, hps, he⟩ := h
    obtain ⟨evs, ctx', tr', ih⟩ := parts_amount hE hapi inc ps hps set ctx tr hk
    refine ⟨.opn (holds (given api) set p n) :: (evs ++ [.cls]), ctx', tr', ⟨?_, ih.knows, ih.offsets, fun s => ?_, fun s => ?_⟩⟩
    · show runEvs env inc ctx tr (directive (keyword p) n [] g :: (written ps ++ [directive "endif::".toList a [] g'])) = _
      unfold C01.runEvs
      rw [step_condition hE inc tr hapi hk.toAttributes hn hd, if_pos rfl]
      dsimp only
      rw [C50.runEvs_append _ _ _ _ _ ih.runs]
      unfold C01.runEvs
      rw [step_end hE inc ctx' tr' he]
      rfl
    · show (evs ++ [Ev.cls]).foldl evStack (s ++ [_]) = s
      rw [List.foldl_append, ih.stack]
      exact List.dropLast_concat
    · show C01.chunks (s ++ [_]) (evs ++ [Ev.cls]) = _
      rw [C01.chunks_append, ih.chunks, eval_snoc]
      show _ ++ [] = if condsEval s = true then (if holds (given api) set p n = true then chosen (given api) set ps else []) else []
      rw [List.append_nil]
      cases condsEval s <;> cases holds (given api) set p n <;> rfl
  | .short p n c g, h, set, ctx, tr, hk => by
    obtain ⟨hn, hc, hd⟩ := h
    have hrun : runEvs env inc ctx tr [directive (keyword p) n c g] = .ok ([if holds (given api) set p n then .emit c else .skip], ctx, tr) := by
      unfold C01.runEvs
      rw [step_condition hE inc tr hapi hk.toAttributes hn hd, if_neg hc]
      rfl
    refine ⟨_, ctx, tr, ⟨hrun, hk, rfl, fun s => ?_, fun s => ?_⟩⟩
    · cases holds (given api) set p n <;> rfl
    · show C01.chunks s [if holds (given api) set p n = true then Ev.emit c else Ev.skip] = if condsEval s = true then (if holds (given api) set p n = true then [c] else []) else []
      cases holds (given api) set p n with
      | true => rfl
      | false => cases condsEval s <;> rfl
theorem parts_amount (hE : Reads env S elem sects within) (hapi : AMap.WF api) (inc : Verif.Ctx → Inclusion → Except Verif.Err (Text × List Offset)) :
    ∀ (ps : List Part), Ok (C50.alnum S) ps → ∀ (set : List Text) (ctx : Verif.Ctx) (tr : Tracker), Knows api set ctx →
    ∃ evs ctx' tr', Amounts env inc api ctx tr (written ps) (after set ps) (chosen (given api) set ps) evs ctx' tr'
  | [], _, set, ctx, tr, hk => ⟨[], ctx, tr, ⟨rfl, hk, rfl, fun _ => rfl, fun s => by cases condsEval s <;> rfl⟩⟩
  | p :: ps, h, set, ctx, tr, hk => by
    obtain ⟨e1, c1, t1, h1⟩ := part_amounts hE hapi inc p h.1 set ctx tr hk
    obtain ⟨e2, c2, t2, h2⟩ := parts_amount hE hapi inc ps h.2 (p.after set) c1 t1 h1.knows
    exact ⟨_, c2, t2, amounts_append h1 h2⟩
end

mutual
theorem part_lines : ∀ (p : Part), p.Ok (C50.alnum S) → ∀ l ∈ p.written, C50.NoEol l ∧ utf8Len l ≤ 65535
  | .line l, h, x, hx => by rw [List.mem_singleton.mp hx]; exact ⟨h.1.line, h.1.short⟩
  | .declare _ l, h, x, hx => by rw [List.mem_singleton.mp hx]; exact ⟨h.1.line, h.1.short⟩
  | .reset _ l, h, x, hx => by rw [List.mem_singleton.mp hx]; exact ⟨h.1.line, h.1.short⟩
  | .when p n g ps a g', h, x, hx => by
    obtain ⟨hn, hd, hps, he⟩ := h
    rcases List.mem_cons.mp hx with rfl | hx
    · exact ⟨(directive_of (k := C50.keyword p) (by cases p <;> rfl) hd).noEol (by cases p <;> (unfold C50.NoEol; decide)), hd.short⟩
    · rcases List.mem_append.mp hx with hx | hx
      · exact parts_lines ps hps x hx
      · rw [List.mem_singleton.mp hx]
        exact ⟨(directive_of (k := "endif::") rfl he).noEol (by unfold C50.NoEol; decide), he.short⟩
  | .short p n c g, h, x, hx => by
    rw [List.mem_singleton.mp hx]
    exact ⟨(directive_of (k := C50.keyword p) (by cases p <;> rfl) h.2.2).noEol (by cases p <;> (unfold C50.NoEol; decide)), h.2.2.short⟩
theorem parts_lines : ∀ (ps : List Part), Ok (C50.alnum S) ps → ∀ l ∈ written ps, C50.NoEol l ∧ utf8Len l ≤ 65535
  | [], _, _, hx => nomatch hx
  | p :: ps, h, x, hx => by
    rcases List.mem_append.mp hx with hx | hx
    · exact part_lines p h.1 x hx
    · exact parts_lines ps h.2 x hx
end

/-- **C71**: what remains of a document with conditions, nested to any depth, are the lines that are chosen. -/
theorem chosen_remain (hE : Reads env S elem sects within) (k : Nat) (file : Text) (hapi : AMap.WF api) {ps : List Part} (h : Ok (C50.alnum S) ps) :
    preprocess env (k + 1) (rootCtx file api) (unlines (written ps)) = .ok (joinLF (chosen (given api) [] ps), []) := by
  have hk : Knows api [] (rootCtx file api) := by
    refine ⟨⟨rfl, List.nodup_nil, fun n => ⟨fun h => ?_, fun h => nomatch h⟩⟩, rfl⟩
    have h : (AMap.get ([] : AMap Val) (String.ofList n)).isSome = true := h
    rw [AMap.get_nil] at h
    cases h
  obtain ⟨evs, ctx', tr', ha⟩ := parts_amount hE hapi (includeFile env (preprocess env k)) ps h [] (rootCtx file api) [] hk
  rw [C01.preprocess_eq, C50.untouched_scan (parts_lines ps h), ha.runs]
  dsimp only
  rw [ha.offsets, ← C01.chunks_eq_visible, ha.chunks]
  rfl

end
end C71
end Verif
