import Verif.Props.Inclusion
import Verif.Props.LevelOffset
/-! C08: included files are isolated from the including file. -/
namespace Verif.C08
open Verif.C01 (Ev stepEv runEvs visible chunks chunks_append chunks_eq_visible evStack)

/-! ### Specification -/

/-- All the level offsets in force are relative ones (always the case at the top level, where there
are none). -/
def AllRelative (os : List Offset) : Prop := ∀ o ∈ os, o.absolute = false

/-! ### Proofs -/

theorem applyOffsets_rel_same : ∀ (os : List Offset) (s : RawSection) (os' : List Offset) (s' : RawSection),
    AllRelative os → applyOffsets os s = .ok (os', s') → os' = os
  | [], s, os', s', _, h => by
    unfold applyOffsets at h; injection h with h; injection h with h _; exact h.symm
  | o :: os, s, os', s', hr, h => by
    unfold applyOffsets at h
    cases ha : o.apply s with
    | error e => rw [ha] at h; cases h
    | ok p =>
      rw [ha] at h
      dsimp only at h
      have ho : p.1 = o := by
        unfold Offset.apply at ha
        rw [hr o List.mem_cons_self] at ha
        dsimp only at ha
        split at ha
        · injection ha with ha; rw [← ha]; rfl
        · cases ha
      cases hb : applyOffsets os p.2 with
      | error e => rw [hb] at h; cases h
      | ok q =>
        rw [hb] at h
        injection h with h; injection h with h _
        rw [← h, ho, applyOffsets_rel_same os p.2 q.1 q.2 (fun x hx => hr x (List.mem_cons_of_mem _ hx)) hb]

/-- What an include function must do to the offsets. -/
def KeepsOffsets (inc : Ctx → Inclusion → Except Err (Text × List Offset)) : Prop :=
  ∀ ctx i t os, AllRelative ctx.offsets → inc ctx i = .ok (t, os) → os = ctx.offsets

theorem stepEv_offsets (env : Env) (inc) (hk : KeepsOffsets inc) (ctx : Ctx) (tr : Tracker) (l : Text) (e : Ev) (ctx' : Ctx) (tr' : Tracker)
    (hr : AllRelative ctx.offsets) (h : stepEv env inc ctx tr l = .ok (e, ctx', tr')) : ctx'.offsets = ctx.offsets := by
  unfold stepEv at h
  cases hc : env.classify ctx.sectEnabled ctx.within l with
  | none => rw [hc] at h; cases h; rfl
  | some x =>
    rw [hc] at h
    cases x with
    | incl i =>
      dsimp only at h
      cases hi : inc ctx i with
      | error e => rw [hi] at h; cases h
      | ok p => rw [hi] at h; cases h; exact hk ctx i p.1 p.2 hr hi
    | sect lvl raw =>
      dsimp only at h
      cases ha : applyOffsets ctx.offsets ⟨lvl, raw⟩ with
      | error e => rw [ha] at h; cases h
      | ok p => rw [ha] at h; cases h; exact applyOffsets_rel_same _ _ _ _ hr ha
    | cond c =>
      dsimp only at h
      cases hs : c.single with
      | none => rw [hs] at h; cases h; rfl
      | some t => rw [hs] at h; cases h; rfl
    | _ => cases h; rfl

theorem runEvs_offsets (env : Env) (inc) (hk : KeepsOffsets inc) : ∀ (ls : List Text) (ctx : Ctx) (tr : Tracker)
    (es : List Ev) (ctx' : Ctx) (tr' : Tracker), AllRelative ctx.offsets →
    runEvs env inc ctx tr ls = .ok (es, ctx', tr') → ctx'.offsets = ctx.offsets
  | [], ctx, tr, es, ctx', tr', _, h => by cases h; rfl
  | l :: ls, ctx, tr, es, ctx', tr', hr, h => by
    unfold runEvs at h
    cases hs : stepEv env inc ctx tr l with
    | error e => rw [hs] at h; cases h
    | ok p =>
      obtain ⟨e, c, t⟩ := p
      rw [hs] at h
      dsimp only at h
      have h1 := stepEv_offsets env inc hk ctx tr l e c t hr hs
      cases hq : runEvs env inc c t ls with
      | error e => rw [hq] at h; cases h
      | ok q =>
        obtain ⟨es', c', t'⟩ := q
        rw [hq] at h
        cases h
        rw [runEvs_offsets env inc hk ls c t es' ctx' tr' (by rw [h1]; exact hr) hq, h1]

theorem includeFile_keeps (env : Env) (recCall) (hrec : ∀ ctx src t os, AllRelative ctx.offsets →
    recCall ctx src = .ok (t, os) → os = ctx.offsets) : KeepsOffsets (includeFile env recCall) := by
  intro ctx i t os hr h
  unfold includeFile at h
  dsimp only at h
  split at h
  · cases h
  · split at h
    · cases h
    · rename_i ls _
      split at h
      · cases h
      · split at h
        · cases h
        · rename_i ch _
          split at h
          · split at h
            · cases h
            · rename_i t' os' hc
              injection h with h; injection h with _ h
              rw [← h]
              cases ch with
              | keep =>
                have h2 := fun hh => hrec _ _ _ _ hh hc
                exact h2 hr
              | absolute n => rfl
              | relative n =>
                have := hrec _ _ _ _ (by
                  intro o ho
                  rcases List.mem_append.1 ho with ho | ho
                  · exact hr o ho
                  · simp at ho; rw [ho]) hc
                show os'.take ctx.offsets.length = _
                rw [this]
                exact List.take_left
          · injection h with h; injection h with _ h; exact h.symm

/-- Preprocessing (an included file) leaves relative level offsets as they were. -/
theorem offsets_kept (env : Env) : ∀ n ctx src t os, AllRelative ctx.offsets →
    preprocess env n ctx src = .ok (t, os) → os = ctx.offsets
  | 0, ctx, src, t, os, _, h => by cases h
  | n + 1, ctx, src, t, os, hr, h => by
    rw [C01.preprocess_eq] at h
    have hk := includeFile_keeps env (preprocess env n) (offsets_kept env n)
    cases hq : runEvs env (includeFile env (preprocess env n)) ctx [] (scanLines src) with
    | error e => rw [hq] at h; cases h
    | ok q =>
      obtain ⟨es, c, tr⟩ := q
      rw [hq] at h
      injection h with h; injection h with _ h
      rw [← h]
      exact runEvs_offsets env _ hk _ ctx [] es c tr hr hq

theorem runEvs_cons (env : Env) (inc) (ctx : Ctx) (tr : Tracker) (l : Text) (ls : List Text) :
    runEvs env inc ctx tr (l :: ls) =
      match stepEv env inc ctx tr l with
      | .error e => .error e
      | .ok (e, ctx, tr) =>
        match runEvs env inc ctx tr ls with
        | .error e => .error e
        | .ok (es, ctx, tr) => .ok (e :: es, ctx, tr) := rfl

theorem runEvs_append (env : Env) (inc) (b : List Text) : ∀ (a : List Text) (ctx : Ctx) (tr : Tracker),
    runEvs env inc ctx tr (a ++ b) =
      match runEvs env inc ctx tr a with
      | .error e => .error e
      | .ok (es, c, t) =>
        match runEvs env inc c t b with
        | .error e => .error e
        | .ok (es', c', t') => .ok (es ++ es', c', t')
  | [], ctx, tr => by
    show runEvs env inc ctx tr b = match runEvs env inc ctx tr b with
      | .error e => .error e
      | .ok (es', c', t') => .ok ([] ++ es', c', t')
    cases runEvs env inc ctx tr b <;> rfl
  | x :: a, ctx, tr => by
    rw [List.cons_append, runEvs_cons, runEvs_cons]
    cases stepEv env inc ctx tr x with
    | error e => rfl
    | ok p =>
      obtain ⟨e, c, t⟩ := p
      dsimp only
      rw [runEvs_append env inc b a c t]
      cases runEvs env inc c t a with
      | error e => rfl
      | ok q =>
        obtain ⟨es, c, t⟩ := q
        dsimp only
        cases runEvs env inc c t b <;> rfl

theorem runEvs_congr (env env' : Env) (inc inc') (hcl : env'.classify = env.classify) : ∀ (ls : List Text) (ctx : Ctx) (tr : Tracker),
    (∀ l ∈ ls, ∀ se wb i, env.classify se wb l = some (.incl i) → ∀ c, inc' c i = inc c i) →
    runEvs env' inc' ctx tr ls = runEvs env inc ctx tr ls
  | [], ctx, tr, _ => rfl
  | l :: ls, ctx, tr, h => by
    have hstep : stepEv env' inc' ctx tr l = stepEv env inc ctx tr l := by
      unfold stepEv
      rw [hcl]
      cases hc : env.classify ctx.sectEnabled ctx.within l with
      | none => rfl
      | some x =>
        cases x with
        | incl i => dsimp only; rw [h l List.mem_cons_self _ _ i hc]
        | _ => rfl
    rw [runEvs_cons, runEvs_cons, hstep]
    cases stepEv env inc ctx tr l with
    | error e => rfl
    | ok p =>
      dsimp only
      rw [runEvs_congr env env' inc inc' hcl ls p.2.1 p.2.2 (fun x hx => h x (List.mem_cons_of_mem _ hx))]

/-- **C08.** Let a document contain an include directive, with only relative level offsets in force.
For any two (hence all) file systems under which the *other* directives give the same texts, the
result is the same sequence of texts around the included one: whatever the included file declares,
offsets, opens or leaves open, it only contributes its own text `t`, and everything before and after
is exactly as it is for any other version of that file — including whether the text is shown. -/
theorem isolation (env : Env) (n : Nat) (ctx : Ctx) (src : Text) (pre post : List Text) (l : Text) (i : Inclusion)
    (hsrc : scanLines src = pre ++ l :: post) (hl : ∀ se wb, env.classify se wb l = some (.incl i))
    (hrel : AllRelative ctx.offsets) :
    ∃ (before after : List Text) (shown : Bool) (at' : Except Err Ctx) (tail : Except Err Unit),
      ∀ fs', (∀ x ∈ pre ++ post, ∀ se wb j, env.classify se wb x = some (.incl j) → ∀ c,
          includeFile { env with fs := fs' } (preprocess { env with fs := fs' } n) c j =
          includeFile env (preprocess env n) c j) →
        preprocess { env with fs := fs' } (n + 1) ctx src =
          match at' with
          | .error e => .error e
          | .ok c =>
            match includeFile { env with fs := fs' } (preprocess { env with fs := fs' } n) c i with
            | .error e => .error e
            | .ok (t, _) =>
              match tail with
              | .error e => .error e
              | .ok () => .ok (joinLF (before ++ (if shown then [t] else []) ++ after), ctx.offsets) := by
  -- the run of the lines before the directive
  cases hpre : runEvs env (includeFile env (preprocess env n)) ctx [] pre with
  | error e =>
    refine ⟨[], [], true, .error e, .ok (), fun fs' hother => ?_⟩
    rw [C01.preprocess_eq, hsrc, runEvs_append,
      runEvs_congr env { env with fs := fs' } (includeFile env (preprocess env n)) _ rfl pre ctx []
        (fun x hx => hother x (List.mem_append_left _ hx)), hpre]
  | ok p =>
    obtain ⟨es, c, tr⟩ := p
    have hk := includeFile_keeps env (preprocess env n) (offsets_kept env n)
    have hc : c.offsets = ctx.offsets := runEvs_offsets env _ hk pre ctx [] es c tr hrel hpre
    have hrun : ∀ fs', (∀ x ∈ pre ++ post, ∀ se wb j, env.classify se wb x = some (.incl j) → ∀ c,
          includeFile { env with fs := fs' } (preprocess { env with fs := fs' } n) c j =
          includeFile env (preprocess env n) c j) →
        runEvs { env with fs := fs' } (includeFile { env with fs := fs' } (preprocess { env with fs := fs' } n)) ctx [] (pre ++ l :: post) =
          match includeFile { env with fs := fs' } (preprocess { env with fs := fs' } n) c i with
          | .error e => .error e
          | .ok (t, _) =>
            match runEvs env (includeFile env (preprocess env n)) c tr post with
            | .error e => .error e
            | .ok (es', c', t') => .ok (es ++ Ev.emit t :: es', c', t') := by
      intro fs' hother
      rw [runEvs_append,
        runEvs_congr env { env with fs := fs' } (includeFile env (preprocess env n)) _ rfl pre ctx []
          (fun x hx => hother x (List.mem_append_left _ hx)), hpre]
      dsimp only
      rw [runEvs_cons]
      unfold stepEv
      dsimp only
      rw [hl]
      dsimp only
      cases hi : includeFile { env with fs := fs' } (preprocess { env with fs := fs' } n) c i with
      | error e => rfl
      | ok q =>
        obtain ⟨t, os⟩ := q
        dsimp only
        have hos := includeFile_keeps { env with fs := fs' } (preprocess { env with fs := fs' } n)
          (offsets_kept { env with fs := fs' } n) c i t os (by rw [hc]; exact hrel) hi
        rw [hos]
        rw [runEvs_congr env { env with fs := fs' } (includeFile env (preprocess env n)) _ rfl post c tr
          (fun x hx => hother x (List.mem_append_right _ hx))]
        cases runEvs env (includeFile env (preprocess env n)) c tr post <;> rfl
    cases hpost : runEvs env (includeFile env (preprocess env n)) c tr post with
    | error e =>
      refine ⟨[], [], true, .ok c, .error e, fun fs' hother => ?_⟩
      rw [C01.preprocess_eq, hsrc, hrun fs' hother, hpost]
      dsimp only
      cases includeFile { env with fs := fs' } (preprocess { env with fs := fs' } n) c i <;> rfl
    | ok q =>
      obtain ⟨es', c', t'⟩ := q
      have hc' : c'.offsets = ctx.offsets := by
        rw [← hc]; exact runEvs_offsets env _ hk post c tr es' c' t' (by rw [hc]; exact hrel) hpost
      refine ⟨chunks [] es, chunks (es.foldl evStack []) es', condsEval (es.foldl evStack []), .ok c, .ok (), fun fs' hother => ?_⟩
      rw [C01.preprocess_eq, hsrc, hrun fs' hother, hpost]
      dsimp only
      cases includeFile { env with fs := fs' } (preprocess { env with fs := fs' } n) c i with
      | error e => rfl
      | ok q =>
        obtain ⟨t, os⟩ := q
        dsimp only
        rw [hc', ← chunks_eq_visible, chunks_append]
        have : chunks (es.foldl evStack []) (Ev.emit t :: es') =
            (if condsEval (es.foldl evStack []) = true then [t] else []) ++ chunks (es.foldl evStack []) es' := by
          show (if condsEval (es.foldl evStack []) = true then t :: chunks (es.foldl evStack []) es'
            else chunks (es.foldl evStack []) es') = _
          split <;> rfl
        rw [this, List.append_assoc]

/-! #### Concrete cases and findings -/

/-- `c.adoc` declares an attribute, opens a conditional and a block and leaves both open. -/
def demo : Env where
  classify se wb l :=
    if l = "include::c.adoc[]".toList then some (.incl ⟨[.lit "c.adoc".toList], none, none, none⟩)
    else if l = "include::c.adoc[leveloffset=2]".toList then some (.incl ⟨[.lit "c.adoc".toList], none, none, some "2".toList⟩)
    else if l = "include::k.adoc[]".toList then some (.incl ⟨[.lit "k.adoc".toList], none, none, none⟩)
    else if l = ":x: 1".toList then some (.decl "x" (.str ['1']) l)
    else if l = "ifdef::x[]".toList then some (.cond (.ifdef "x" none))
    else if l = "ifndef::x[]".toList then some (.cond (.ifndef "x" none))
    else if l = "----".toList then some (.delim "listing" 4 l)
    else if se && !wb && l = "= S".toList then some (.sect 0 l)
    else if se && !wb && l = "== T".toList then some (.sect 1 l)
    else none
  resolve _ p := p
  fs f :=
    if f = "c.adoc".toList then some ":x: 1\nifndef::x[]\n----\nlost".toList
    else none
  alnum := Char.isAlphanum
  showVal _ := []

example : preprocess demo 3 (rootCtx [] []) "a\ninclude::c.adoc[]\nifdef::x[]\nb".toList = .ok ("a\n:x: 1".toList, []) := rfl

/-- Files for the aliasing finding: `m.adoc` is included with an absolute offset; it includes
`k.adoc`, which contains a level-1 heading. -/
def aliased : Env := { demo with fs := fun f =>
    if f = "c.adoc".toList then some "include::k.adoc[]\n= S".toList
    else if f = "k.adoc".toList then some "== T".toList
    else none }

/-- The same, with another version of `k.adoc`: a level-0 heading. -/
def aliased' : Env := { demo with fs := fun f =>
    if f = "c.adoc".toList then some "include::k.adoc[]\n= S".toList
    else if f = "k.adoc".toList then some "= S".toList
    else none }

/-- Finding (why `AllRelative` is needed): with a pending absolute offset, the heading *inside* a
nested file decides by how much the later headings of the including file are shifted. -/
theorem finding_absolute_offset_leaks :
    preprocess aliased 4 (rootCtx [] []) "include::c.adoc[leveloffset=2]".toList = .ok ("=== T\n== S".toList, []) ∧
    preprocess aliased' 4 (rootCtx [] []) "include::c.adoc[leveloffset=2]".toList = .ok ("=== S\n=== S".toList, []) :=
  ⟨rfl, rfl⟩

/-- `c.adoc` contains a listing block and a heading after it. -/
def inherits : Env := { demo with fs := fun f =>
    if f = "c.adoc".toList then some "== T\n----\n----\n== T".toList else none }

/-- Finding (C37): the included file inherits "within a block" from the including file but starts
with an empty stack of its own; after an inner block is closed, headings are taken for sections again
although the including file's block is still open. With an offset of 2 the first heading of the
included file is left alone, the second one is shifted. -/
theorem finding_inherited_block_state_is_lost :
    preprocess inherits 3 { rootCtx [] [] with sectEnabled := true, within := true, offsets := [⟨false, 2⟩] }
      "include::c.adoc[]".toList = .ok ("== T\n----\n----\n==== T".toList, [⟨false, 2⟩]) := rfl

-- non-vacuity of the hypotheses of `isolation`
example : ∀ se wb, demo.classify se wb "include::c.adoc[]".toList = some (.incl ⟨[.lit "c.adoc".toList], none, none, none⟩) := by
  intro se wb; rfl
example : AllRelative (rootCtx [] []).offsets := by intro o ho; cases ho

end Verif.C08
