import Verif.Proofs.Conditionals
import Verif.Proofs.Scan
import Verif.Props.Include
/-! C07 (termination of file inclusion) and C08 (isolation of included files). -/
namespace Verif.C07

/-! ### Specification -/

/-- A line of an included text is a line of the file, or that line with one more trailing CR removed
(the text is scanned twice). -/
def LineOf (content : Text) (l : Text) : Prop := ∃ l0 ∈ scanLines content, l = l0 ∨ l = dropCR l0

/-- File `f` may include file `g`: some line of `f` is an include directive whose path, for some
values of the attributes it refers to, resolves to the Asciidoc file `g`. -/
def MayInclude (env : Env) (f g : Text) : Prop :=
  ∃ content, env.fs f = some content ∧ ∃ l, LineOf content l ∧ ∃ se wb i attrs,
    env.classify se wb l = some (.incl i) ∧ env.resolve f (pathText env attrs i.path) = g ∧ isAsciidoc g = true

/-- The document itself may include file `g`. -/
def RootIncludes (env : Env) (filename src g : Text) : Prop :=
  ∃ l ∈ scanLines src, ∃ se wb i attrs,
    env.classify se wb l = some (.incl i) ∧ env.resolve filename (pathText env attrs i.path) = g ∧ isAsciidoc g = true

/-- There is no infinite chain of inclusions starting at `f` (in particular no cycle). -/
def NoInfiniteChain (env : Env) (f : Text) : Prop := Acc (fun b a => MayInclude env a b) f

/-! ### Proofs -/

/-- `g` is defined at least where `f` is, with the same result. -/
def Extends (f g : Ctx → Text → Except Err (Text × List Offset)) : Prop :=
  ∀ ctx t, f ctx t ≠ .error .diverge → g ctx t = f ctx t

theorem selectLines_no_diverge (env : Env) (i : Inclusion) (c : Text) : selectLines env i c ≠ .error .diverge := by
  have hloop : ∀ (sel : List TagRange) (ls : List Text) (cur : CurRanges) (n : Nat),
      readTagsLoop env.alnum (fun _ _ c => c) sel cur n ls ≠ .error .diverge := by
    intro sel ls
    induction ls with
    | nil => intro cur n h; cases h
    | cons l ls ih =>
      intro cur n h
      unfold readTagsLoop at h
      dsimp only at h
      have hu : updateRanges cur (n + 1) (lineTags env.alnum l) ≠ .error .diverge := by
        unfold updateRanges
        dsimp only
        split
        · split <;> intro h <;> cases h
        · intro h; cases h
      cases hq : updateRanges cur (n + 1) (lineTags env.alnum l) with
      | error e => rw [hq] at h hu; exact hu (by simpa using h)
      | ok cur' =>
        rw [hq] at h
        dsimp only at h
        cases hr : readTagsLoop env.alnum (fun _ _ c => c) sel cur' (n + 1) ls with
        | error e => rw [hr] at h; exact ih cur' (n + 1) (by rw [hr]; simpa using h)
        | ok p => rw [hr] at h; dsimp only at h; split at h <;> cases h
  unfold selectLines
  split
  · split <;> intro h <;> cases h
  · split
    · split
      · intro h; cases h
      · unfold readWithinTags
        rename_i ts _
        cases hr : readTagsLoop env.alnum (fun _ _ c => c) ts [] 0 (scanLines c) with
        | error e => intro h; exact hloop ts (scanLines c) [] 0 (by rw [hr]; simpa using h)
        | ok p => dsimp only; split <;> intro h <;> cases h
    · intro h; cases h

theorem includeFile_extends (env : Env) {f g} (h : Extends f g) (ctx : Ctx) (i : Inclusion)
    (hne : includeFile env f ctx i ≠ .error .diverge) : includeFile env g ctx i = includeFile env f ctx i := by
  revert hne
  unfold includeFile
  dsimp only
  cases env.fs (env.resolve ctx.filename (pathText env ctx.attrs i.path)) with
  | none => intro _; rfl
  | some content =>
    dsimp only
    cases selectLines env i content with
    | error e => intro _; rfl
    | ok ls =>
      dsimp only
      by_cases hs : scanErr content = true
      · rw [if_pos hs, if_pos hs]; intro _; rfl
      · rw [if_neg hs, if_neg hs]
        cases offsetChange i with
        | error e => intro _; rfl
        | ok ch =>
          dsimp only
          by_cases ha : isAsciidoc (env.resolve ctx.filename (pathText env ctx.attrs i.path)) = true
          · rw [if_pos ha, if_pos ha]
            intro hne
            rw [h]
            intro hd
            rw [hd] at hne
            exact hne rfl
          · rw [if_neg ha, if_neg ha]; intro _; rfl

theorem stepLine_extends (env : Env) {f g} (h : Extends f g) (st : St) (l : Text)
    (hne : stepLine env (includeFile env f) st l ≠ .error .diverge) :
    stepLine env (includeFile env g) st l = stepLine env (includeFile env f) st l := by
  revert hne
  unfold stepLine
  cases env.classify st.ctx.sectEnabled st.ctx.within l with
  | none => intro _; rfl
  | some e =>
    cases e with
    | incl i =>
      dsimp only
      intro hne
      rw [includeFile_extends env h]
      intro hd; rw [hd] at hne; exact hne rfl
    | _ => intro _; rfl

theorem runLines_extends (env : Env) {f g} (h : Extends f g) : ∀ (ls : List Text) (st : St),
    runLines env (includeFile env f) st ls ≠ .error .diverge →
    runLines env (includeFile env g) st ls = runLines env (includeFile env f) st ls
  | [], st, _ => rfl
  | l :: ls, st, hne => by
    unfold runLines at *
    have hs : stepLine env (includeFile env f) st l ≠ .error .diverge := by
      intro hd; rw [hd] at hne; exact hne rfl
    rw [stepLine_extends env h st l hs]
    cases hq : stepLine env (includeFile env f) st l with
    | error e => rfl
    | ok st' =>
      rw [hq] at hne
      exact runLines_extends env h ls st' hne

theorem preprocess_succ (env : Env) (n : Nat) (ctx : Ctx) (t : Text) : preprocess env (n + 1) ctx t =
    (match runLines env (includeFile env (preprocess env n)) (St.init ctx) (scanLines t) with
      | .error e => .error e
      | .ok st => .ok (st.b.acc, st.ctx.offsets)) := rfl

theorem preprocess_extends (env : Env) : ∀ n, Extends (preprocess env n) (preprocess env (n + 1))
  | 0 => fun ctx t h => absurd rfl h
  | n + 1 => by
    intro ctx t h
    have ih := preprocess_extends env n
    rw [preprocess_succ env (n + 1), runLines_extends env ih]
    · rfl
    · intro hd
      apply h
      rw [preprocess_succ, hd]

/-- **C07.** Once the preprocessor completes with some recursion depth, it gives the same result for
every larger depth: the result is well defined. -/
theorem depth_independent (env : Env) (n m : Nat) (hnm : n ≤ m) (ctx : Ctx) (src : Text)
    (h : preprocess env n ctx src ≠ .error .diverge) : preprocess env m ctx src = preprocess env n ctx src := by
  induction m with
  | zero => have : n = 0 := by omega
            rw [this]
  | succ m ih =>
    by_cases e : n = m + 1
    · rw [e]
    · have := ih (by omega)
      rw [preprocess_extends env m ctx src (by rw [this]; exact h), this]

theorem stepLine_stable (env : Env) (st : St) (l : Text)
    (hinc : ∀ i, env.classify st.ctx.sectEnabled st.ctx.within l = some (.incl i) →
      ∃ N, ∀ n ≥ N, includeFile env (preprocess env n) st.ctx i ≠ .error .diverge) :
    ∃ N r, r ≠ .error .diverge ∧ ∀ n ≥ N, stepLine env (includeFile env (preprocess env n)) st l = r := by
  have key : ∀ N, (∀ n ≥ N, stepLine env (includeFile env (preprocess env n)) st l ≠ .error .diverge) →
      ∃ N r, r ≠ .error .diverge ∧ ∀ n ≥ N, stepLine env (includeFile env (preprocess env n)) st l = r := by
    intro N h
    refine ⟨N, stepLine env (includeFile env (preprocess env N)) st l, h N (Nat.le_refl _), ?_⟩
    intro n hn
    obtain ⟨k, rfl⟩ := Nat.exists_eq_add_of_le hn
    clear hn
    induction k with
    | zero => rfl
    | succ k ih =>
      rw [← ih]
      exact stepLine_extends env (preprocess_extends env (N + k)) st l (h _ (by omega))
  cases hc : env.classify st.ctx.sectEnabled st.ctx.within l with
  | none =>
    apply key 0
    intro n _
    unfold stepLine; rw [hc]
    intro h; cases h
  | some e =>
    have hsect : ∀ (os : List Offset) (s : RawSection), applyOffsets os s ≠ .error .diverge := by
      intro os
      induction os with
      | nil => intro s h; cases h
      | cons o os ih =>
        intro s h
        unfold applyOffsets at h
        have ho : o.apply s ≠ .error .diverge := by
          unfold Offset.apply RawSection.offsetLevel
          dsimp only
          intro h
          split at h
          · cases h
          · rename_i e hh
            split at hh
            · cases hh
            · cases hh; cases h
        cases ha : o.apply s with
        | error e => rw [ha] at h ho; exact ho (by simpa using h)
        | ok p =>
          rw [ha] at h
          dsimp only at h
          cases hb : applyOffsets os p.2 with
          | error e => rw [hb] at h; exact ih p.2 (by rw [hb]; simpa using h)
          | ok q => rw [hb] at h; cases h
    cases e with
    | incl i =>
      obtain ⟨N, hN⟩ := hinc i hc
      apply key N
      intro n hn
      unfold stepLine; rw [hc]
      dsimp only
      have := hN n hn
      cases hi : includeFile env (preprocess env n) st.ctx i with
      | error e => rw [hi] at this; intro h; exact this (by simpa using h)
      | ok p => intro h; cases h
    | sect lvl raw =>
      apply key 0
      intro n _
      unfold stepLine; rw [hc]
      dsimp only
      cases ha : applyOffsets st.ctx.offsets ⟨lvl, raw⟩ with
      | error e => intro h; exact hsect _ _ (by rw [ha]; simpa using h)
      | ok p => intro h; cases h
    | cond c =>
      apply key 0
      intro n _
      unfold stepLine; rw [hc]
      dsimp only
      cases c.single <;> intro h <;> cases h
    | decl a b c =>
      apply key 0
      intro n _
      unfold stepLine; rw [hc]
      intro h; cases h
    | reset a b =>
      apply key 0
      intro n _
      unfold stepLine; rw [hc]
      intro h; cases h
    | delim a b c =>
      apply key 0
      intro n _
      unfold stepLine; rw [hc]
      intro h; cases h
    | endif =>
      apply key 0
      intro n _
      unfold stepLine; rw [hc]
      intro h; cases h

theorem stepLine_filename (env : Env) (inc) (st st' : St) (l : Text) (h : stepLine env inc st l = .ok st') :
    st'.ctx.filename = st.ctx.filename := by
  unfold stepLine at h
  cases hc : env.classify st.ctx.sectEnabled st.ctx.within l with
  | none => rw [hc] at h; cases h; rfl
  | some e =>
    rw [hc] at h
    cases e with
    | incl i => 
      dsimp only at h
      cases hi : inc st.ctx i with
      | error e => rw [hi] at h; cases h
      | ok p => rw [hi] at h; cases h; rfl
    | sect lvl raw =>
      dsimp only at h
      cases ha : applyOffsets st.ctx.offsets ⟨lvl, raw⟩ with
      | error e => rw [ha] at h; cases h
      | ok p => rw [ha] at h; cases h; rfl
    | cond c =>
      dsimp only at h
      cases hs : c.single with
      | none => rw [hs] at h; cases h; rfl
      | some t =>
        rw [hs] at h
        dsimp only at h
        split at h <;> cases h <;> rfl
    | _ => cases h; rfl

/-- If every include directive among the lines leads to an inclusion that completes, so do the lines. -/
theorem runLines_stable (env : Env) (f : Text) : ∀ (ls : List Text) (st : St), st.ctx.filename = f →
    (∀ l ∈ ls, ∀ (ctx : Ctx) se wb i, ctx.filename = f → env.classify se wb l = some (.incl i) →
      ∃ N, ∀ n ≥ N, includeFile env (preprocess env n) ctx i ≠ .error .diverge) →
    ∃ N, ∀ n ≥ N, runLines env (includeFile env (preprocess env n)) st ls ≠ .error .diverge
  | [], st, _, _ => ⟨0, fun n _ h => by cases h⟩
  | l :: ls, st, hf, hinc => by
    obtain ⟨N, r, hr, hN⟩ := stepLine_stable env st l
      (fun i hi => hinc l List.mem_cons_self st.ctx _ _ i hf hi)
    cases r with
    | error e =>
      refine ⟨N, fun n hn h => hr ?_⟩
      unfold runLines at h
      rw [hN n hn] at h
      simpa using h
    | ok st' =>
      have hf' : st'.ctx.filename = f := by
        rw [← hf]; exact stepLine_filename env _ st st' l (hN N (Nat.le_refl _))
      obtain ⟨M, hM⟩ := runLines_stable env f ls st' hf'
        (fun l' hl' => hinc l' (List.mem_cons_of_mem _ hl'))
      refine ⟨max N M, fun n hn h => ?_⟩
      unfold runLines at h
      rw [hN n (by omega)] at h
      exact hM n (by omega) h

theorem mem_unlines_scan {ls : List Text} {l : Text} (hnl : ∀ x ∈ ls, '\n' ∉ x) (h : l ∈ scanLines (unlines ls)) :
    ∃ x ∈ ls, l = dropCR x := by
  unfold scanLines at h
  rw [physLines_unlines ls hnl] at h
  obtain ⟨x, hx, rfl⟩ := List.mem_map.1 h
  exact ⟨x, (List.takeWhile_sublist _).mem hx, rfl⟩

theorem selected_sublist (env : Env) (i : Inclusion) (content : Text) (ls : List Text)
    (h : selectLines env i content = .ok ls) : ∀ l ∈ ls, l ∈ scanLines content := by
  have hlines : ∀ (rs : List LineRange) (xs : List Text) (n : Nat) (l : Text),
      l ∈ readWithinLines env.alnum rs n xs → l ∈ xs := by
    intro rs xs
    induction xs with
    | nil => intro n l h; simp [readWithinLines] at h
    | cons x xs ih =>
      intro n l h
      unfold readWithinLines at h
      split at h
      · exact List.mem_cons_of_mem _ (ih _ _ h)
      · split at h
        · rcases List.mem_cons.1 h with rfl | h
          · exact List.mem_cons_self
          · exact List.mem_cons_of_mem _ (ih _ _ h)
        · exact List.mem_cons_of_mem _ (ih _ _ h)
  have htags : ∀ (sel : List TagRange) (xs : List Text) (cur : CurRanges) (n : Nat) (out : List Text) (cur' : CurRanges),
      readTagsLoop env.alnum (fun _ _ c => c) sel cur n xs = .ok (out, cur') → ∀ l ∈ out, l ∈ xs := by
    intro sel xs
    induction xs with
    | nil => intro cur n out cur' h l hl; cases h; simp at hl
    | cons x xs ih =>
      intro cur n out cur' h l hl
      unfold readTagsLoop at h
      dsimp only at h
      split at h
      · cases h
      · rename_i c hc
        split at h
        · cases h
        · rename_i o c' hr
          split at h
          · injection h with h; injection h with h1 h2
            subst h1
            rcases List.mem_cons.1 hl with rfl | hl
            · exact List.mem_cons_self
            · exact List.mem_cons_of_mem _ (ih _ _ _ _ hr l hl)
          · injection h with h; injection h with h1 h2
            subst h1
            exact List.mem_cons_of_mem _ (ih _ _ _ _ hr l hl)
  unfold selectLines at h
  split at h
  · split at h
    · cases h
    · injection h with h; subst h
      exact fun l hl => hlines _ _ _ l hl
  · split at h
    · split at h
      · cases h
      · unfold readWithinTags at h
        split at h
        · cases h
        · rename_i out cur hr
          split at h
          · injection h with h; subst h
            exact htags _ _ _ _ _ _ hr
          · cases h
    · injection h with h; subst h
      intro l hl
      exact (List.mem_filter.1 hl).1

theorem not_mem_dropCR (l : Text) : ∀ x ∈ dropCR l, x ∈ l := by
  induction l with
  | nil => simp [dropCR]
  | cons c cs ih =>
    intro x hx
    cases cs with
    | nil =>
      unfold dropCR at hx
      split at hx
      · simp at hx
      · exact hx
    | cons d ds =>
      unfold dropCR at hx
      rcases List.mem_cons.1 hx with rfl | hx
      · exact List.mem_cons_self
      · exact List.mem_cons_of_mem _ (ih x hx)

theorem scanLines_noLF (t l : Text) (h : l ∈ scanLines t) : '\n' ∉ l := by
  unfold scanLines at h
  obtain ⟨x, hx, rfl⟩ := List.mem_map.1 h
  have := (physLines_spec t).1 x ((List.takeWhile_sublist _).mem hx)
  exact fun hn => this (not_mem_dropCR x _ hn)

theorem includeFile_stable (env : Env) (ctx : Ctx) (i : Inclusion)
    (h : ∀ content ls, env.fs (env.resolve ctx.filename (pathText env ctx.attrs i.path)) = some content →
      selectLines env i content = .ok ls →
      isAsciidoc (env.resolve ctx.filename (pathText env ctx.attrs i.path)) = true → ∀ c : Ctx,
      c.filename = env.resolve ctx.filename (pathText env ctx.attrs i.path) →
      ∃ N, ∀ n ≥ N, preprocess env n c (unlines ls) ≠ .error .diverge) :
    ∃ N, ∀ n ≥ N, includeFile env (preprocess env n) ctx i ≠ .error .diverge := by
  unfold includeFile
  dsimp only
  cases hf : env.fs (env.resolve ctx.filename (pathText env ctx.attrs i.path)) with
  | none => exact ⟨0, fun n _ h => by cases h⟩
  | some content =>
    dsimp only
    have hsel := selectLines_no_diverge env i content
    cases hs : selectLines env i content with
    | error e => exact ⟨0, fun n _ h => hsel (by rw [hs]; simpa using h)⟩
    | ok ls =>
      dsimp only
      by_cases hse : scanErr content = true
      · exact ⟨0, fun n _ h => by rw [if_pos hse] at h; cases h⟩
      · cases ho : offsetChange i with
        | error e =>
          refine ⟨0, fun n _ h => ?_⟩
          rw [if_neg hse] at h
          unfold offsetChange at ho
          split at ho
          · cases ho
          · split at ho
            · cases ho; cases h
            · split at ho <;> cases ho
        | ok ch =>
          by_cases ha : isAsciidoc (env.resolve ctx.filename (pathText env ctx.attrs i.path)) = true
          · obtain ⟨N, hN⟩ := h content ls hf hs ha
              { ctx with filename := env.resolve ctx.filename (pathText env ctx.attrs i.path),
                         offsets := childOffsets ctx.offsets ch, sectEnabled := true } rfl
            refine ⟨N, fun n hn h => ?_⟩
            rw [if_neg hse] at h
            dsimp only at h
            rw [if_pos ha] at h
            have := hN n hn
            revert h
            split
            · rename_i e he; rw [he] at this; intro h; exact this (by simpa using h)
            · intro h; cases h
          · refine ⟨0, fun n _ h => ?_⟩
            rw [if_neg hse] at h
            dsimp only at h
            rw [if_neg ha] at h
            cases h

/-- The content of a file with no infinite inclusion chain is preprocessed in finitely many steps. -/
theorem file_terminates (env : Env) (f : Text) (hacc : NoInfiniteChain env f) : ∀ content (ls : List Text),
    env.fs f = some content → (∀ l ∈ ls, l ∈ scanLines content) → ∀ ctx : Ctx, ctx.filename = f →
    ∃ N, ∀ n ≥ N, preprocess env n ctx (unlines ls) ≠ .error .diverge := by
  unfold NoInfiniteChain at hacc
  induction hacc with
  | intro f _ ih =>
    intro content ls hfs hls ctx hctx
    have hrun := runLines_stable env f (scanLines (unlines ls)) (St.init ctx) hctx (by
      intro l hl c se wb i hc hcl
      obtain ⟨x, hx, rfl⟩ := mem_unlines_scan (fun y hy => scanLines_noLF _ _ (hls y hy)) hl
      apply includeFile_stable
      intro content' ls' hfs' hsel' hadoc c' hc'
      refine ih _ ?_ content' ls' hfs' (selected_sublist env i content' ls' hsel') c' hc'
      rw [← hc]
      exact ⟨content, by rw [hc]; exact hfs, dropCR x, ⟨x, hls x hx, Or.inr rfl⟩, se, wb, i, c.attrs, hcl, rfl, hadoc⟩)
    obtain ⟨N, hN⟩ := hrun
    refine ⟨N + 1, fun n hn h => ?_⟩
    obtain ⟨m, rfl⟩ : ∃ m, n = m + 1 := ⟨n - 1, by omega⟩
    rw [preprocess_succ] at h
    have := hN m (by omega)
    cases hr : runLines env (includeFile env (preprocess env m)) (St.init ctx) (scanLines (unlines ls)) with
    | error e => rw [hr] at h this; exact this (by simpa using h)
    | ok st => rw [hr] at h; cases h

/-- **C07.** If no file that the document may include starts an infinite chain of inclusions (in
particular: no cycle), preprocessing terminates: beyond some recursion depth the result is a genuine
one and does not change any more. -/
theorem terminates (env : Env) (ctx : Ctx) (src : Text)
    (h : ∀ g, RootIncludes env ctx.filename src g → NoInfiniteChain env g) :
    ∃ N, ∃ r, r ≠ .error .diverge ∧ ∀ n ≥ N, preprocess env n ctx src = r := by
  have hrun := runLines_stable env ctx.filename (scanLines src) (St.init ctx) rfl (by
      intro l hl c se wb i hc hcl
      apply includeFile_stable
      intro content' ls' hfs' hsel' hadoc c' hc'
      refine file_terminates env _ (h _ ?_) content' ls' hfs' (selected_sublist env i content' ls' hsel') c' hc'
      exact ⟨l, hl, se, wb, i, c.attrs, hcl, by rw [hc], by rw [hc] at hadoc; rw [hc]; exact hadoc⟩)
  obtain ⟨N, hN⟩ := hrun
  have hnd : preprocess env (N + 1) ctx src ≠ .error .diverge := by
    intro h
    rw [preprocess_succ] at h
    have := hN N (Nat.le_refl _)
    cases hr : runLines env (includeFile env (preprocess env N)) (St.init ctx) (scanLines src) with
    | error e => rw [hr] at h this; exact this (by simpa using h)
    | ok st => rw [hr] at h; cases h
  exact ⟨N + 1, _, hnd, fun n hn => depth_independent env (N + 1) n hn ctx src hnd⟩

/-- A line that can neither fail nor include anything. -/
def Harmless (env : Env) (l : Text) : Prop :=
  ∀ se wb, (∀ i, env.classify se wb l ≠ some (.incl i)) ∧ (∀ lv raw, env.classify se wb l ≠ some (.sect lv raw))

/-- The text inserted by a plain `include::f[]`. -/
def wholeFile (env : Env) (content : Text) : Text := unlines (readAll env.alnum (scanLines content))

/-- The lines reach, after harmless lines only, a plain include directive for `g`. -/
def Reaches (env : Env) (f : Text) (lines : List Text) (g : Text) : Prop :=
  ∃ pre l post p, lines = pre ++ l :: post ∧ (∀ x ∈ pre, Harmless env x) ∧
    (∀ se wb, env.classify se wb l = some (.incl ⟨[.lit p], none, none, none⟩)) ∧ env.resolve f p = g

theorem harmless_step (env : Env) (inc) (st : St) (l : Text) (h : Harmless env l) :
    ∃ st', stepLine env inc st l = .ok st' ∧ st'.ctx.filename = st.ctx.filename := by
  have hh := h st.ctx.sectEnabled st.ctx.within
  cases hst : stepLine env inc st l with
  | ok st' => exact ⟨st', rfl, stepLine_filename env inc st st' l hst⟩
  | error e =>
    exfalso
    unfold stepLine at hst
    cases hc : env.classify st.ctx.sectEnabled st.ctx.within l with
    | none => rw [hc] at hst; cases hst
    | some x =>
      rw [hc] at hst
      cases x with
      | incl i => exact hh.1 i hc
      | sect lv raw => exact hh.2 lv raw hc
      | cond c =>
        dsimp only at hst
        cases hs : c.single <;> rw [hs] at hst <;> cases hst
      | _ => cases hst

theorem reaches_diverges (env : Env) (inc) (f g : Text) (lines : List Text) (h : Reaches env f lines g)
    (hinc : ∀ (c : Ctx) p, c.filename = f → env.resolve f p = g → inc c ⟨[.lit p], none, none, none⟩ = .error .diverge) :
    ∀ st : St, st.ctx.filename = f → runLines env inc st lines = .error .diverge := by
  obtain ⟨pre, l, post, p, rfl, hpre, hl, hg⟩ := h
  induction pre with
  | nil =>
    intro st hst
    show runLines env inc st (l :: post) = _
    unfold runLines stepLine
    rw [hl]
    dsimp only
    rw [hinc st.ctx p hst hg]
  | cons x pre ih =>
    intro st hst
    obtain ⟨st', h1, h2⟩ := harmless_step env inc st x (hpre x List.mem_cons_self)
    show runLines env inc st (x :: (pre ++ l :: post)) = _
    unfold runLines
    rw [h1]
    exact ih (fun y hy => hpre y (List.mem_cons_of_mem _ hy)) st' (h2.trans hst)

/-- **C07.** Cyclic inclusion never completes: if every file of a set reaches an include of a file of
the set (a self-inclusion being the simplest case), no recursion depth is enough for a document
that reaches such an include; there is no depth guard. This also holds when the include directive
is inside a conditional block that is false. -/
theorem cycle_diverges (env : Env) (P : Text → Prop)
    (hP : ∀ f, P f → isAsciidoc f = true ∧ ∃ content, env.fs f = some content ∧ scanErr content = false ∧
      ∃ g, P g ∧ Reaches env f (scanLines (wholeFile env content)) g)
    (ctx : Ctx) (src : Text) (g : Text) (hg : P g) (hsrc : Reaches env ctx.filename (scanLines src) g) :
    ∀ n, preprocess env n ctx src = .error .diverge := by
  have hinc : ∀ n, (∀ (c : Ctx) (f content : Text) (g : Text), c.filename = f → P g →
        Reaches env f (scanLines (wholeFile env content)) g → preprocess env n c (wholeFile env content) = .error .diverge) →
      ∀ (c : Ctx) (g p : Text), P g → env.resolve c.filename p = g →
        includeFile env (preprocess env n) c ⟨[.lit p], none, none, none⟩ = .error .diverge := by
    intro n ih c g p hg hr
    obtain ⟨hadoc, content, hfs, hse, g', hg', hreach⟩ := hP g hg
    have hp : pathText env c.attrs [.lit p] = p := by simp [pathText]
    unfold includeFile
    dsimp only
    rw [hp, hr, hfs]
    dsimp only
    show (if scanErr content = true then Except.error Err.error else _) = _
    rw [if_neg (by rw [hse]; simp)]
    show (if isAsciidoc g = true then _ else _) = _
    rw [if_pos hadoc]
    have := ih { c with filename := g, offsets := childOffsets c.offsets .keep, sectEnabled := true } g content g' rfl hg' hreach
    unfold wholeFile at this
    rw [this]
  have key : ∀ n (c : Ctx) (t g : Text), P g → Reaches env c.filename (scanLines t) g →
      preprocess env n c t = .error .diverge := by
    intro n
    induction n with
    | zero => intro c t g _ _; rfl
    | succ n ih =>
      intro c t g hg hr
      rw [preprocess_succ, reaches_diverges env _ c.filename g (scanLines t) hr ?_ (St.init c) rfl]
      intro c' p hc' hp
      exact hinc n (fun c f content g hcf hg hr => ih c _ g hg (hcf ▸ hr)) c' g p hg (by rw [hc']; exact hp)
  exact fun n => key n ctx src g hg hsrc

/-! #### Concrete cases -/

/-- Two files: `a.adoc` includes `b.txt`, which includes nothing; `s.adoc` includes itself under an
`ifdef` that is false. -/
def demo : Env where
  classify _ _ l :=
    if l = "include::b.txt[]".toList then some (.incl ⟨[.lit "b.txt".toList], none, none, none⟩)
    else if l = "include::a.adoc[]".toList then some (.incl ⟨[.lit "a.adoc".toList], none, none, none⟩)
    else if l = "include::s.adoc[]".toList then some (.incl ⟨[.lit "s.adoc".toList], none, none, none⟩)
    else if l = "ifdef::x[]".toList then some (.cond (.ifdef "x" none))
    else none
  resolve _ p := p
  fs f :=
    if f = "a.adoc".toList then some "A\ninclude::b.txt[]".toList
    else if f = "b.txt".toList then some "B".toList
    else if f = "s.adoc".toList then some "ifdef::x[]\ninclude::s.adoc[]".toList
    else none
  alnum := Char.isAlphanum
  showVal _ := []

example : preprocess demo 5 (rootCtx "r".toList []) "x\ninclude::a.adoc[]\ny".toList = .ok ("x\nA\nB\ny".toList, []) := by rfl

-- the hypotheses of `cycle_diverges` are met by the self-including file
example : ∀ n, preprocess demo n (rootCtx "r".toList []) "include::s.adoc[]".toList = .error .diverge := by
  apply cycle_diverges demo (fun f => f = "s.adoc".toList)
  · rintro f rfl
    refine ⟨by decide, _, rfl, by decide, _, rfl, ["ifdef::x[]".toList], "include::s.adoc[]".toList, [], _, rfl, ?_, ?_, rfl⟩
    · intro x hx se wb
      rw [List.mem_singleton] at hx
      subst hx
      exact ⟨fun i h => (by cases h), fun a b h => (by cases h)⟩
    · intro se wb; rfl
  · rfl
  · exact ⟨[], _, [], "s.adoc".toList, rfl, by simp, fun _ _ => rfl, rfl⟩

-- the hypotheses of `terminates` are met by the acyclic files
example : ∀ g, RootIncludes demo "r".toList "include::b.txt[]".toList g → NoInfiniteChain demo g := by
  rintro g ⟨l, hl, se, wb, i, attrs, hc, hr, _⟩
  have hl' : l = "include::b.txt[]".toList := by
    have : scanLines "include::b.txt[]".toList = ["include::b.txt[]".toList] := by decide
    rw [this] at hl; simpa using hl
  subst hl'
  have hi : i = ⟨[.lit "b.txt".toList], none, none, none⟩ := by
    have : demo.classify se wb "include::b.txt[]".toList = some (.incl ⟨[.lit "b.txt".toList], none, none, none⟩) := rfl
    rw [this] at hc; injection hc with hc; injection hc with hc; exact hc.symm
  subst hi
  have hg : g = "b.txt".toList := by rw [← hr]; rfl
  subst hg
  constructor
  rintro b ⟨content, hfs, l, ⟨l0, hl0, hl⟩, se', wb', i', _, hc', _⟩
  have hcont : content = "B".toList := by
    have : demo.fs "b.txt".toList = some "B".toList := rfl
    rw [this] at hfs; injection hfs with h; exact h.symm
  subst hcont
  have : scanLines "B".toList = ["B".toList] := by decide
  rw [this, List.mem_singleton] at hl0
  subst hl0
  have hlb : l = "B".toList := by rcases hl with h | h <;> rw [h] <;> rfl
  subst hlb
  have : demo.classify se' wb' "B".toList = none := rfl
  rw [this] at hc'; cases hc'

end Verif.C07
