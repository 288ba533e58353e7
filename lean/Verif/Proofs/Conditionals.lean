import Verif.Spec.Conditionals
import Verif.Proofs.Scan
/-! Lemmas relating `preprocess` to the specification of conditional inclusion. -/
namespace Verif.C01

/-- The events of a run, conditionals aside: the same loop as `preprocess` without the stack of
conditions and the output buffer. -/
def stepEv (env : Env) (inc : Ctx → Inclusion → Except Err (Text × List Offset)) (ctx : Ctx) (tr : Tracker)
    (line : Text) : Except Err (Ev × Ctx × Tracker) :=
  match env.classify ctx.sectEnabled ctx.within line with
  | none => .ok (.emit line, ctx, tr)
  | some (.decl n v raw) => .ok (.emit raw, { ctx with attrs := ctx.attrs.set n v }, tr)
  | some (.reset n raw) => .ok (.emit raw, { ctx with attrs := ctx.attrs.unset n }, tr)
  | some (.sect lvl raw) =>
    match applyOffsets ctx.offsets ⟨lvl, raw⟩ with
    | .error e => .error e
    | .ok (os, s) => .ok (.emit s.raw, { ctx with offsets := os }, tr)
  | some (.incl i) =>
    match inc ctx i with
    | .error e => .error e
    | .ok (t, os) => .ok (.emit t, { ctx with offsets := os }, tr)
  | some (.delim k n raw) =>
    .ok (.emit raw, { ctx with within := !(track tr k n).isEmpty }, track tr k n)
  | some (.cond c) =>
    match c.single with
    | some t => .ok (if c.eval ctx.attrs.all then .emit t else .skip, ctx, tr)
    | none => .ok (.opn (c.eval ctx.attrs.all), ctx, tr)
  | some .endif => .ok (.cls, ctx, tr)

/-- The events of all the lines, with the final context. -/
def runEvs (env : Env) (inc : Ctx → Inclusion → Except Err (Text × List Offset)) :
    Ctx → Tracker → List Text → Except Err (List Ev × Ctx × Tracker)
  | ctx, tr, [] => .ok ([], ctx, tr)
  | ctx, tr, l :: ls =>
    match stepEv env inc ctx tr l with
    | .error e => .error e
    | .ok (e, ctx, tr) =>
      match runEvs env inc ctx tr ls with
      | .error e => .error e
      | .ok (es, ctx, tr) => .ok (e :: es, ctx, tr)

/-- Effect of an event on the stack of conditions. -/
def evStack (s : Conds) : Ev → Conds
  | .opn b => s ++ [b]
  | .cls => s.dropLast
  | _ => s

/-- The chunks written for a list of events from a given stack. -/
def chunks : Conds → List Ev → List Text
  | _, [] => []
  | s, .emit t :: r => if condsEval s then t :: chunks s r else chunks s r
  | s, .opn b :: r => chunks (s ++ [b]) r
  | s, .cls :: r => chunks s.dropLast r
  | s, .skip :: r => chunks s r

/-- The state of the buffer after writing some chunks. -/
def BufInv (st : St) (out : List Text) : Prop :=
  st.b.acc = joinLF out ∧ st.b.insertLF = !out.isEmpty ∧ st.b.enabled = condsEval st.conds

theorem write_inv (st : St) (out : List Text) (h : BufInv st out) (t : Text) :
    ((st.b.write t).acc = joinLF (out ++ if condsEval st.conds then [t] else [])) ∧
    (st.b.write t).insertLF = !(out ++ if condsEval st.conds then [t] else []).isEmpty ∧
    (st.b.write t).enabled = condsEval st.conds := by
  obtain ⟨h1, h2, h3⟩ := h
  unfold Builder.write
  rw [h3]
  cases hc : condsEval st.conds
  · simp [h1, h2, h3, hc]
  · simp only [if_true, h1, h2, h3, hc, joinLF_append_singleton]
    cases out with
    | nil => simp [joinLF]
    | cons o os => simp

theorem run_eq (env : Env) (inc) : ∀ (lines : List Text) (st : St) (out : List Text), BufInv st out →
    (∀ es ctx tr, runEvs env inc st.ctx st.tracker lines = .ok (es, ctx, tr) →
      ∃ st', runLines env inc st lines = .ok st' ∧ st'.ctx = ctx ∧ st'.tracker = tr ∧
        st'.conds = es.foldl evStack st.conds ∧ BufInv st' (out ++ chunks st.conds es)) ∧
    (∀ e, runEvs env inc st.ctx st.tracker lines = .error e → runLines env inc st lines = .error e) := by
  intro lines
  induction lines with
  | nil =>
    intro st out h
    refine ⟨?_, ?_⟩
    · intro es ctx tr he
      simp only [runEvs, Except.ok.injEq, Prod.mk.injEq] at he
      obtain ⟨rfl, rfl, rfl⟩ := he
      exact ⟨st, rfl, rfl, rfl, rfl, by simpa [chunks] using h⟩
    · intro e he; simp [runEvs] at he
  | cons l ls ih =>
    intro st out h
    have key : (∀ ev ctx tr, stepEv env inc st.ctx st.tracker l = .ok (ev, ctx, tr) →
        ∃ st', stepLine env inc st l = .ok st' ∧ st'.ctx = ctx ∧ st'.tracker = tr ∧
          st'.conds = evStack st.conds ev ∧ BufInv st' (out ++ chunks st.conds [ev])) ∧
        (∀ e, stepEv env inc st.ctx st.tracker l = .error e → stepLine env inc st l = .error e) := by
      have wr := write_inv st out h
      unfold stepEv stepLine
      cases hcl : env.classify st.ctx.sectEnabled st.ctx.within l with
      | none =>
        simp only [Except.ok.injEq, Prod.mk.injEq]
        refine ⟨?_, by simp⟩
        rintro ev ctx tr ⟨rfl, rfl, rfl⟩
        exact ⟨_, rfl, rfl, rfl, rfl, wr l⟩
      | some el =>
        cases el with
        | decl n v raw =>
          simp only [Except.ok.injEq, Prod.mk.injEq]
          refine ⟨?_, by simp⟩
          rintro ev ctx tr ⟨rfl, rfl, rfl⟩
          exact ⟨_, rfl, rfl, rfl, rfl, wr raw⟩
        | reset n raw =>
          simp only [Except.ok.injEq, Prod.mk.injEq]
          refine ⟨?_, by simp⟩
          rintro ev ctx tr ⟨rfl, rfl, rfl⟩
          exact ⟨_, rfl, rfl, rfl, rfl, wr raw⟩
        | incl i =>
          simp only
          cases hi : inc st.ctx i with
          | error e => simp
          | ok p =>
            obtain ⟨t, os⟩ := p
            simp only [Except.ok.injEq, Prod.mk.injEq]
            refine ⟨?_, by simp⟩
            rintro ev ctx tr ⟨rfl, rfl, rfl⟩
            exact ⟨_, rfl, rfl, rfl, rfl, wr t⟩
        | cond c =>
          simp only
          cases hs : c.single with
          | some t =>
            simp only [Except.ok.injEq, Prod.mk.injEq]
            refine ⟨?_, by simp⟩
            rintro ev ctx tr ⟨rfl, rfl, rfl⟩
            by_cases hb : c.eval st.ctx.attrs.all = true
            · simp only [hb, if_true]
              exact ⟨_, rfl, rfl, rfl, rfl, wr t⟩
            · simp only [hb]
              exact ⟨st, rfl, rfl, rfl, rfl, by simpa [chunks] using h⟩
          | none =>
            simp only [Except.ok.injEq, Prod.mk.injEq]
            refine ⟨?_, by simp⟩
            rintro ev ctx tr ⟨rfl, rfl, rfl⟩
            exact ⟨_, rfl, rfl, rfl, rfl, by simp [chunks, BufInv, h.1, h.2.1]⟩
        | endif =>
          simp only [Except.ok.injEq, Prod.mk.injEq]
          refine ⟨?_, by simp⟩
          rintro ev ctx tr ⟨rfl, rfl, rfl⟩
          exact ⟨_, rfl, rfl, rfl, rfl, by simp [chunks, BufInv, h.1, h.2.1]⟩
        | delim k n raw =>
          simp only [Except.ok.injEq, Prod.mk.injEq]
          refine ⟨?_, by simp⟩
          rintro ev ctx tr ⟨rfl, rfl, rfl⟩
          exact ⟨_, rfl, rfl, rfl, rfl, wr raw⟩
        | sect lvl raw =>
          simp only
          cases hi : applyOffsets st.ctx.offsets ⟨lvl, raw⟩ with
          | error e => simp
          | ok p =>
            obtain ⟨os, s⟩ := p
            simp only [Except.ok.injEq, Prod.mk.injEq]
            refine ⟨?_, by simp⟩
            rintro ev ctx tr ⟨rfl, rfl, rfl⟩
            exact ⟨_, rfl, rfl, rfl, rfl, wr s.raw⟩
    have chunks_cons : ∀ s ev es, chunks s (ev :: es) = chunks s [ev] ++ chunks (evStack s ev) es := by
      intro s ev es
      cases ev <;> simp [chunks, evStack]
      split <;> simp
    simp only [runEvs, runLines]
    cases hst : stepEv env inc st.ctx st.tracker l with
    | error e =>
      refine ⟨by simp, ?_⟩
      intro e' he'
      simp only [Except.error.injEq] at he'
      subst he'
      rw [key.2 e hst]
    | ok p =>
      obtain ⟨ev, ctx1, tr1⟩ := p
      obtain ⟨st1, hs1, hc1, ht1, hk1, hb1⟩ := key.1 ev ctx1 tr1 hst
      simp only [hs1]
      have ih1 := ih st1 _ hb1
      rw [hc1, ht1] at ih1
      refine ⟨?_, ?_⟩
      · intro es ctx tr he
        cases hr : runEvs env inc ctx1 tr1 ls with
        | error e => simp [hr] at he
        | ok q =>
          obtain ⟨es', ctx', tr'⟩ := q
          simp only [hr, Except.ok.injEq, Prod.mk.injEq] at he
          obtain ⟨rfl, rfl, rfl⟩ := he
          obtain ⟨st2, h2, h3, h4, h5, h6⟩ := ih1.1 _ _ _ hr
          refine ⟨st2, h2, h3, h4, by rw [h5, hk1]; rfl, ?_⟩
          rw [chunks_cons, ← List.append_assoc, ← hk1]
          exact h6
      · intro e he
        cases hr : runEvs env inc ctx1 tr1 ls with
        | error e' =>
          simp only [hr, Except.error.injEq] at he
          subst he
          exact ih1.2 _ hr
        | ok q => simp [hr] at he

/-- The bottom element of the stack survives the events iff it is still open after them. -/
theorem foldl_bottom (evs : List Ev) : ∀ (b : Bool) (s : List Bool),
    evs.foldl evStack (b :: s) =
      if stillOpen s.length evs then b :: evs.foldl evStack s else evs.foldl evStack s := by
  induction evs with
  | nil => intro b s; simp [stillOpen]
  | cons e evs ih =>
    intro b s
    cases e with
    | emit t => simp only [List.foldl_cons, evStack, stillOpen]; exact ih b s
    | skip => simp only [List.foldl_cons, evStack, stillOpen]; exact ih b s
    | opn b' =>
      simp only [List.foldl_cons, evStack, stillOpen, List.cons_append]
      have := ih b (s ++ [b'])
      rw [List.length_append] at this
      exact this
    | cls =>
      cases s with
      | nil => simp [evStack, stillOpen]
      | cons c s =>
        have := ih b ((c :: s).dropLast)
        simpa [evStack, stillOpen] using this

/-- The stack of conditions is the list of the conditionals that are open. -/
theorem stack_eq_openConds (evs : List Ev) : evs.foldl evStack [] = openConds evs := by
  induction evs with
  | nil => rfl
  | cons e evs ih =>
    cases e with
    | emit t => simpa [evStack, openConds] using ih
    | skip => simpa [evStack, openConds] using ih
    | cls => simpa [evStack, openConds] using ih
    | opn b =>
      have := foldl_bottom evs b []
      simp only [List.length_nil] at this
      simp only [List.foldl_cons, evStack, List.nil_append, openConds, this, ih]

theorem chunks_eq_visible (evs : List Ev) : chunks [] evs = visible evs := by
  suffices H : ∀ (r pre : List Ev), chunks (pre.foldl evStack []) r =
      (List.range r.length).filterMap (fun i => r[i]?.bind (shownAfter (pre ++ r.take i))) by
    simpa [visible] using H evs []
  intro r
  induction r with
  | nil => intro pre; rfl
  | cons e r ih =>
    intro pre
    have step := ih (pre ++ [e])
    rw [List.foldl_append] at step
    simp only [List.foldl_cons, List.foldl_nil, List.append_assoc, List.singleton_append] at step
    rw [List.length_cons, List.range_succ_eq_map, List.filterMap_cons, List.filterMap_map]
    simp only [List.getElem?_cons_zero, List.take_zero, List.append_nil, Option.bind_some]
    have tail : ((fun i => (e :: r)[i]?.bind (shownAfter (pre ++ (e :: r).take i))) ∘ Nat.succ) =
        (fun i => r[i]?.bind (shownAfter (pre ++ e :: r.take i))) := by
      funext i; simp
    rw [tail, ← step]
    cases e with
    | emit t =>
      simp only [chunks, evStack, shownAfter]
      have : condsEval (pre.foldl evStack []) = true ↔ ∀ b ∈ openConds pre, b = true := by
        rw [stack_eq_openConds]; simp [condsEval]
      by_cases hc : ∀ b ∈ openConds pre, b = true
      · rw [if_pos hc, if_pos (this.2 hc)]
      · rw [if_neg hc, if_neg (fun h => hc (this.1 h))]
    | opn b => simp [chunks, evStack, shownAfter]
    | cls => simp [chunks, evStack, shownAfter]
    | skip => simp [chunks, evStack, shownAfter]


theorem preprocess_eq (env : Env) (n : Nat) (ctx : Ctx) (src : Text) :
    preprocess env (n + 1) ctx src =
      match runEvs env (includeFile env (preprocess env n)) ctx [] (scanLines src) with
      | .error e => .error e
      | .ok (es, ctx', _) => .ok (joinLF (visible es), ctx'.offsets) := by
  have h := run_eq env (includeFile env (preprocess env n)) (scanLines src) (St.init ctx) []
    (by simp [BufInv, St.init, joinLF, condsEval])
  simp only [preprocess]
  cases hr : runEvs env (includeFile env (preprocess env n)) ctx [] (scanLines src) with
  | error e => rw [h.2 e hr]
  | ok p =>
    obtain ⟨es, ctx', tr⟩ := p
    obtain ⟨st', h1, h2, _, _, h5⟩ := h.1 es ctx' tr hr
    rw [h1]
    simp only [Except.ok.injEq, Prod.mk.injEq]
    refine ⟨?_, by rw [h2]⟩
    rw [h5.1, List.nil_append]
    show joinLF (chunks [] es) = _
    rw [chunks_eq_visible]

/-- Recursive form of `eventsOf`. -/
theorem eventsOf_cons (a : CtxAttrs) (cls : Text → Option RawElem) (l : Text) (ls : List Text) :
    eventsOf a cls (l :: ls) = evOf a l (cls l) :: eventsOf (attrsAfter a [cls l]) cls ls := by
  unfold eventsOf
  rw [List.length_cons, List.range_succ_eq_map, List.map_cons, List.map_map]
  congr 1
  apply List.map_congr_left
  intro i _
  simp only [Function.comp, Nat.succ_eq_add_one, List.take_succ_cons, List.map_cons]
  have : ∀ (x : Option RawElem) r, attrsAfter a (x :: r) = attrsAfter (attrsAfter a [x]) r := by
    intro x r
    cases x with
    | none => rfl
    | some e => cases e <;> rfl
  rw [this]
  simp

theorem eventsOf_append (cls : Text → Option RawElem) (l1 l2 : List Text) : ∀ a : CtxAttrs,
    eventsOf a cls (l1 ++ l2) = eventsOf a cls l1 ++ eventsOf (attrsAfter a (l1.map cls)) cls l2 := by
  induction l1 with
  | nil => intro a; rfl
  | cons l l1 ih =>
    intro a
    rw [List.cons_append, eventsOf_cons, ih, eventsOf_cons, List.cons_append, List.map_cons]
    congr 2
    cases h : cls l with
    | none => rfl
    | some e => cases e <;> rfl

theorem runEvs_plain (env : Env) (inc) (cls : Text → Option RawElem) : ∀ (lines : List Text) (ctx : Ctx) (tr : Tracker),
    (∀ l ∈ lines, ∀ se wb, env.classify se wb l = cls l) → (∀ l ∈ lines, ∀ i, cls l ≠ some (.incl i)) →
    ctx.offsets = [] →
    ∃ ctx' tr', runEvs env inc ctx tr lines = .ok (eventsOf ctx.attrs cls lines, ctx', tr') ∧ ctx'.offsets = [] := by
  intro lines
  induction lines with
  | nil => intro ctx tr _ _ h; exact ⟨ctx, tr, rfl, h⟩
  | cons l ls ih =>
    intro ctx tr hcl hinc hoff
    have key : ∃ ctx' tr', stepEv env inc ctx tr l = .ok (evOf ctx.attrs l (cls l), ctx', tr') ∧
        ctx'.offsets = [] ∧ ctx'.attrs = attrsAfter ctx.attrs [cls l] := by
      unfold stepEv
      rw [hcl l (by simp)]
      cases hc : cls l with
      | none => exact ⟨ctx, tr, rfl, hoff, rfl⟩
      | some e =>
        cases e with
        | decl n v raw => exact ⟨_, _, rfl, hoff, rfl⟩
        | reset n raw => exact ⟨_, _, rfl, hoff, rfl⟩
        | incl i => exact absurd hc (hinc l (by simp) i)
        | endif => exact ⟨_, _, rfl, hoff, rfl⟩
        | delim k n raw => exact ⟨_, _, rfl, hoff, rfl⟩
        | sect lvl raw =>
          simp only [hoff, applyOffsets]
          exact ⟨_, _, rfl, rfl, rfl⟩
        | cond c =>
          simp only [evOf]
          cases hs : c.single with
          | none => exact ⟨_, _, rfl, hoff, rfl⟩
          | some t => exact ⟨_, _, rfl, hoff, rfl⟩
    obtain ⟨ctx1, tr1, h1, h2, h3⟩ := key
    obtain ⟨ctx2, tr2, h4, h5⟩ := ih ctx1 tr1 (fun x hx => hcl x (by simp [hx]))
      (fun x hx => hinc x (by simp [hx])) h2
    refine ⟨ctx2, tr2, ?_, h5⟩
    simp only [runEvs, h1, h4, eventsOf_cons, h3]

theorem chunks_append (a b : List Ev) : ∀ s, chunks s (a ++ b) = chunks s a ++ chunks (a.foldl evStack s) b := by
  induction a with
  | nil => intro s; rfl
  | cons e a ih =>
    intro s
    cases e <;> simp [chunks, evStack, ih]
    split <;> simp

/-- A surplus `endif` can be removed. -/
theorem visible_surplus (pre post : List Ev) (h : openConds pre = []) :
    visible (pre ++ .cls :: post) = visible (pre ++ post) := by
  rw [← chunks_eq_visible, ← chunks_eq_visible, chunks_append, chunks_append, stack_eq_openConds, h]
  rfl

end Verif.C01
