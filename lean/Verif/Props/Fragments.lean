import Verif.Props.Pipeline
/-! C11: a fragment in error does not affect the others. -/
namespace Verif.C11
open Pipe C10

variable {σ El γ E : Type}

/-- types.go `DocumentFragment`: elements, or an error. -/
abbrev Frag (El E : Type) := Except E (List El)

/-- The common shape of the stage functions: a fragment in error is passed on as it is
(document_processing_refine_fragments.go:32-35, document_processing_apply_substitutions.go:39-42,
document_processing_collect_footnotes.go:26-29, document_processing_arrange_lists.go:30-33,
document_processing_filter_elements.go:30-33); otherwise the elements are processed, which may fail and
give an error fragment (refine_fragments.go:39, apply_substitutions.go:45, arrange_lists.go:39,
filter_elements.go:36). -/
def stageFn (body : σ → List El → σ × Frag El E) (s : σ) : Frag El E → σ × Frag El E
  | .error e => (s, .error e)
  | .ok es => body s es

/-- A pipeline stage with that shape. -/
def mkStage (body : σ → List El → σ × Frag El E) (guarded : Frag El E → Bool) (init : σ) : Stage σ (Frag El E) :=
  ⟨stageFn body, guarded, init⟩

/-- document_processing_aggregate.go:36-40: the consumer logs and skips fragments in error. -/
def aggFn (agg : γ → List El → Except E γ) (g : γ) : Frag El E → Except E γ
  | .error _ => .ok g
  | .ok es => agg g es

/-- The fragments that are not in error. -/
def okOnly (xs : List (Frag El E)) : List (Frag El E) := xs.filter (fun f => match f with | .ok _ => true | .error _ => false)

/-- Stages with the common shape. -/
def Shaped (s : Stage σ (Frag El E)) : Prop := ∀ st e, s.fn st (.error e) = (st, .error e)

theorem mkStage_shaped (body : σ → List El → σ × Frag El E) (guarded : Frag El E → Bool) (init : σ) : Shaped (mkStage body guarded init) :=
  fun _ _ => rfl

theorem runStage_okOnly (fn : σ → Frag El E → σ × Frag El E) (h : ∀ st e, fn st (.error e) = (st, .error e)) :
    ∀ (xs : List (Frag El E)) (s : σ), okOnly (runStage fn s xs) = okOnly (runStage fn s (okOnly xs)) := by
  intro xs
  induction xs with
  | nil => intro s; rfl
  | cons x xs ih =>
    intro s
    cases x with
    | error e =>
      have : okOnly (.error e :: xs) = okOnly xs := rfl
      rw [this]
      simp only [runStage, h]
      exact ih s
    | ok es =>
      have : okOnly (.ok es :: xs) = .ok es :: okOnly xs := rfl
      rw [this]
      simp only [runStage]
      have ih' := ih (fn s (.ok es)).1
      cases (fn s (.ok es)).2 with
      | error e => exact ih'
      | ok fs => exact congrArg (Except.ok fs :: ·) ih'

theorem okOnly_idem (xs : List (Frag El E)) : okOnly (okOnly xs) = okOnly xs := by
  simp [okOnly, List.filter_filter]

theorem runAll_okOnly (stages : List (Stage σ (Frag El E))) (h : ∀ s ∈ stages, Shaped s) :
    ∀ xs, okOnly (runAll stages xs) = okOnly (runAll stages (okOnly xs)) := by
  induction stages with
  | nil => intro xs; simp [runAll, okOnly_idem]
  | cons s ss ih =>
    intro xs
    have ih := ih (fun s hs => h s (List.mem_cons_of_mem _ hs))
    simp only [runAll]
    rw [ih, runStage_okOnly s.fn (h s List.mem_cons_self), ← ih]

theorem fold_okOnly (agg : γ → List El → Except E γ) : ∀ (xs : List (Frag El E)) (g : γ),
    fold (aggFn agg) g xs = fold (aggFn agg) g (okOnly xs) := by
  intro xs
  induction xs with
  | nil => intro g; rfl
  | cons x xs ih =>
    intro g
    cases x with
    | error e => exact ih g
    | ok es =>
      have : okOnly (.ok es :: xs) = .ok es :: okOnly xs := rfl
      rw [this]
      simp only [fold, aggFn]
      cases agg g es with
      | error e => rfl
      | ok g => exact ih g

/-- Fragments in error at the start of the pipeline do not affect the document in any way: for every
schedule, the result is the one obtained when they are not there. -/
theorem error_fragments_ignored {cap : Nat} (hcap : 0 < cap) (agg : γ → List El → Except E γ) (src : Stage σ (Frag El E))
    (stages : List (Stage σ (Frag El E))) (hs : ∀ s ∈ src :: stages, Shaped s) (input : List (Frag El E)) (acc : γ)
    {as as' : List Actor} {s s' : Sys σ (Frag El E) γ E}
    (h : Run cap (aggFn agg) (start src input stages acc) as s) (hmax : ∀ a, step cap (aggFn agg) s a = none)
    (h' : Run cap (aggFn agg) (start src (okOnly input) stages acc) as' s') (hmax' : ∀ a, step cap (aggFn agg) s' a = none) :
    s.cons = s'.cons := by
  have e : fold (aggFn agg) acc (runAll (src :: stages) input) = fold (aggFn agg) acc (runAll (src :: stages) (okOnly input)) := by
    rw [fold_okOnly, runAll_okOnly _ hs, ← fold_okOnly]
  have m := maximal_run hcap h hmax
  have m' := maximal_run hcap h' hmax'
  cases hr : fold (aggFn agg) acc (runAll (src :: stages) input) with
  | ok g => rw [m.1 g hr, m'.1 g (e ▸ hr)]
  | error x => rw [m.2 x hr, m'.2 x (e ▸ hr)]

/-- A stage that keeps no state (the fragment parser, RefineFragments, ArrangeLists, FilterOut). -/
def Stateless (s : Stage σ (Frag El E)) : Prop := ∀ st x, (s.fn st x).1 = st

theorem runStage_append (fn : σ → Frag El E → σ × Frag El E) : ∀ (xs ys : List (Frag El E)) (s : σ),
    runStage fn s (xs ++ ys) = runStage fn s xs ++ runStage fn (lastState fn s xs) ys := by
  intro xs
  induction xs with
  | nil => intro ys s; rfl
  | cons x xs ih => intro ys s; simp [runStage, lastState, ih]

/-- What a stateless chain of stages makes of one fragment. -/
def through : List (Stage σ (Frag El E)) → Frag El E → Frag El E
  | [], f => f
  | s :: ss, f => through ss (s.fn s.init f).2

theorem runStage_stateless (s : Stage σ (Frag El E)) (h : Stateless s) : ∀ xs, runStage s.fn s.init xs = xs.map (fun x => (s.fn s.init x).2) := by
  intro xs
  induction xs with
  | nil => rfl
  | cons x xs ih => simp only [runStage, List.map_cons, h s.init x, ih]

theorem runAll_stateless (stages : List (Stage σ (Frag El E))) (h : ∀ s ∈ stages, Stateless s) : ∀ xs,
    runAll stages xs = xs.map (through stages) := by
  induction stages with
  | nil => intro xs; simp [runAll, through]
  | cons s ss ih =>
    intro xs
    simp only [runAll]
    rw [runStage_stateless s (h s List.mem_cons_self), ih (fun s hs => h s (List.mem_cons_of_mem _ hs))]
    simp [through]

theorem runAll_append_stages (a b : List (Stage σ (Frag El E))) : ∀ xs, runAll (a ++ b) xs = runAll b (runAll a xs) := by
  induction a with
  | nil => intro xs; rfl
  | cons s ss ih => intro xs; simp only [List.cons_append, runAll, ih]

/-- A fragment that fails before any stateful stage has seen it is dropped as a whole: the document is
the one of the source without it. -/
theorem failed_fragment_dropped (agg : γ → List El → Except E γ) (pre post : List (Stage σ (Frag El E)))
    (hpre : ∀ s ∈ pre, Stateless s) (hpost : ∀ s ∈ post, Shaped s) (xs ys : List (Frag El E)) (f : Frag El E) (e : E)
    (hf : through pre f = .error e) (acc : γ) :
    fold (aggFn agg) acc (runAll (pre ++ post) (xs ++ f :: ys)) = fold (aggFn agg) acc (runAll (pre ++ post) (xs ++ ys)) := by
  rw [runAll_append_stages, runAll_append_stages, runAll_stateless pre hpre, runAll_stateless pre hpre, List.map_append, List.map_cons, hf,
    List.map_append]
  rw [fold_okOnly, runAll_okOnly post hpost, fold_okOnly _ (runAll post _), runAll_okOnly post hpost (_ ++ List.map (through pre) ys)]
  have : okOnly (xs.map (through pre) ++ .error e :: ys.map (through pre)) = okOnly (xs.map (through pre) ++ ys.map (through pre)) := by
    simp [okOnly, List.filter_append, List.filter_cons]
  rw [this]

/-- Non-vacuity: a stateless refining stage that rejects a fragment, then a numbering stage. -/
inductive ExEl where
  | text (n : Nat)
  | counter
  | badSubs
deriving DecidableEq, Repr

/-- A stage that rejects fragments containing an ill-formed block (as RefineFragments does). -/
def exRefine : Stage Nat (Frag ExEl Unit) :=
  mkStage (fun s es => if ExEl.badSubs ∈ es then (s, .error ()) else (s, .ok es)) (fun _ => true) 0

/-- document_processing_apply_substitutions.go:49-56 and 567-604 in miniature: the elements of a fragment
are processed one after the other, `{counter:x}` advances the counter of the context, an element with an
unknown substitution makes the whole fragment fail (document_substitutions.go:90-132). -/
def exSubsElems : Nat → List ExEl → Nat × Frag ExEl Unit
  | s, [] => (s, .ok [])
  | s, .text n :: es => match exSubsElems s es with
    | (s, .ok es) => (s, .ok (.text n :: es))
    | (s, .error e) => (s, .error e)
  | s, .counter :: es => match exSubsElems (s + 1) es with
    | (s', .ok es) => (s', .ok (.text (s + 1) :: es))
    | (s', .error e) => (s', .error e)
  | s, .badSubs :: _ => (s, .error ())

def exSubs : Stage Nat (Frag ExEl Unit) := mkStage exSubsElems (fun _ => true) 0

example : through [exRefine] (.ok [.counter, .badSubs]) = .error () ∧ (∀ s ∈ [exRefine], Stateless s) ∧ (∀ s ∈ [exSubs], Shaped s) ∧
    runAll ([exRefine] ++ [exSubs]) [.ok [.counter], .ok [.counter, .badSubs], .ok [.counter]] =
      [.ok [.text 1], .error (), .ok [.text 2]] := by
  refine ⟨rfl, ?_, ?_, rfl⟩
  · intro s hs st x
    simp only [List.mem_singleton] at hs; subst hs
    cases x with
    | error e => rfl
    | ok es => simp only [exRefine, mkStage, stageFn]; split <;> rfl
  · intro s hs; simp only [List.mem_singleton] at hs; subst hs; exact mkStage_shaped _ _ _

/-- FINDING: a fragment that fails while substitutions are applied has already advanced the counters (and
attributes) it contains: later fragments see that, so the result is not the one of the source without the
failed fragment. -/
theorem finding_failed_fragment_leaves_state :
    okOnly (runAll [exSubs] [.ok [.counter], .ok [.counter, .badSubs], .ok [.counter]]) ≠
    okOnly (runAll [exSubs] [.ok [.counter], .ok [.counter]]) := by
  intro h
  have : ([.ok [.text 1], .ok [.text 3]] : List (Frag ExEl Unit)) = [.ok [.text 1], .ok [.text 2]] := h
  simp at this

end Verif.C11
