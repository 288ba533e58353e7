import Verif.Model.Basic
/-!
Model of the concurrent pipeline of pkg/parser/document_processing.go lines 16-46.

Every stage is a goroutine of the shape

    defer close(out)
    for x := range in {
      select {
      case out <- f(x):      // f(x) is evaluated before the select blocks
      case <-done: return
      }
    }

(document_processing_refine_fragments.go:14-29, document_processing_apply_substitutions.go:21-36,
document_processing_collect_footnotes.go:8-23, document_processing_arrange_lists.go:11-26,
document_processing_filter_elements.go:12-27), connected by channels of capacity `bufferSize`
(document_processing.go:13).  The first goroutine (document_processing_parse_fragments.go:12-73) is the
same loop over the results of the fragment parser, except that error fragments are sent outside of
the `select` (lines 18, 23, 45): it is modelled as a stage whose input is given and already closed.
The consumer is `aggregate` (document_processing_aggregate.go:36-94), which runs in the goroutine of
the caller and may return early with an error; `done` is closed when `ParseDocument` returns
(document_processing.go:18).

Simplifications: the state of a stage (its `ParseContext`, the footnotes) and its function are
arbitrary, of one common type; a received value and the evaluation of `f` are one step; the
unbuffered hand-over between a blocked sender and a blocked receiver is not distinguished from a send
followed by a receive.  The scheduler is arbitrary: a schedule is any list of actors.
-/
namespace Verif.Pipe

variable {σ α γ ε : Type}

/-- A Go channel: buffered values, and whether it has been closed by its sender. -/
structure Chan (α : Type) where
  q : List α
  closed : Bool

/-- A goroutine with its input channel. `hold` is the evaluated operand of the pending send.
`guarded x` tells whether the send of `x` is inside the `select` with `<-done`. -/
structure Cell (σ α : Type) where
  inp : Chan α
  fn : σ → α → σ × α
  guarded : α → Bool
  st : σ
  hold : Option α
  exited : Bool

/-- The consumer: still reading, or `aggregate` has returned. -/
inductive Cons (γ ε : Type) where
  | running (acc : γ)
  | ok (acc : γ)
  | err (e : ε)

/-- The whole system: goroutines from upstream to downstream, the last channel, the consumer. -/
structure Sys (σ α γ ε : Type) where
  cells : List (Cell σ α)
  out : Chan α
  cons : Cons γ ε

/-- `done` is closed once `ParseDocument` returns (document_processing.go:17-18). -/
def Cons.isDone : Cons γ ε → Bool
  | .running _ => false
  | _ => true

/-- Send on the channel in front of `cells` (or on the last one); blocked when it is full. -/
def push (cap : Nat) (x : α) : List (Cell σ α) → Chan α → Option (List (Cell σ α) × Chan α)
  | [], o => if o.q.length < cap then some ([], { o with q := o.q ++ [x] }) else none
  | c :: cs, o =>
    if c.inp.q.length < cap then some ({ c with inp := { c.inp with q := c.inp.q ++ [x] } } :: cs, o) else none

/-- `defer close(out)`. -/
def closeNext : List (Cell σ α) → Chan α → List (Cell σ α) × Chan α
  | [], o => ([], { o with closed := true })
  | c :: cs, o => ({ c with inp := { c.inp with closed := true } } :: cs, o)

/-- The move of the first goroutine of `c :: cs` other than leaving because of `done`; `none` if it
is blocked or gone. -/
def move (cap : Nat) (c : Cell σ α) (cs : List (Cell σ α)) (o : Chan α) : Option (List (Cell σ α) × Chan α) :=
  if c.exited then none
  else match c.hold with
    | some x => (push cap x cs o).map (fun r => ({ c with hold := none } :: r.1, r.2))
    | none =>
      match c.inp.q with
      | x :: r =>
        some ({ c with inp := { c.inp with q := r }, st := (c.fn c.st x).1, hold := some (c.fn c.st x).2 } :: cs, o)
      | [] =>
        if c.inp.closed then
          some ({ c with exited := true } :: (closeNext cs o).1, (closeNext cs o).2)
        else none

/-- `case <-done: return`. -/
def quit (c : Cell σ α) (cs : List (Cell σ α)) (o : Chan α) : Option (List (Cell σ α) × Chan α) :=
  if c.exited then none
  else match c.hold with
    | some x => if c.guarded x then some ({ c with exited := true, hold := none } :: (closeNext cs o).1, (closeNext cs o).2) else none
    | none => none

/-- Who makes the next step. -/
inductive Actor where
  | stage (i : Nat)
  | quit (i : Nat)
  | consumer
deriving DecidableEq, Repr

/-- Apply a local move at goroutine `i`. -/
def atIdx (f : Cell σ α → List (Cell σ α) → Chan α → Option (List (Cell σ α) × Chan α)) :
    Nat → List (Cell σ α) → Chan α → Option (List (Cell σ α) × Chan α)
  | _, [], _ => none
  | 0, c :: cs, o => f c cs o
  | i + 1, c :: cs, o => (atIdx f i cs o).map (fun r => (c :: r.1, r.2))

/-- document_processing_aggregate.go:36-94: receive a fragment and process it, or see that the channel is
closed and drained. -/
def consume (agg : γ → α → Except ε γ) (s : Sys σ α γ ε) : Option (Sys σ α γ ε) :=
  match s.cons with
  | .running acc =>
    match s.out.q with
    | x :: r =>
      match agg acc x with
      | .ok acc => some { s with out := { s.out with q := r }, cons := .running acc }
      | .error e => some { s with out := { s.out with q := r }, cons := .err e }
    | [] => if s.out.closed then some { s with cons := .ok acc } else none
  | _ => none

/-- One step of the system; `none` when the actor cannot move. -/
def step (cap : Nat) (agg : γ → α → Except ε γ) (s : Sys σ α γ ε) : Actor → Option (Sys σ α γ ε)
  | .stage i => (atIdx (move cap) i s.cells s.out).map (fun r => { s with cells := r.1, out := r.2 })
  | .quit i => if s.cons.isDone then (atIdx quit i s.cells s.out).map (fun r => { s with cells := r.1, out := r.2 }) else none
  | .consumer => consume agg s

/-- An execution: `Run s as s'` when the actors `as`, each able to move when its turn comes, lead from
`s` to `s'`. -/
inductive Run (cap : Nat) (agg : γ → α → Except ε γ) : Sys σ α γ ε → List Actor → Sys σ α γ ε → Prop
  | nil {s} : Run cap agg s [] s
  | cons {s s' s'' a as} : step cap agg s a = some s' → Run cap agg s' as s'' → Run cap agg s (a :: as) s''

/-- A stage of the pipeline before it starts: its function, initial state and which sends are guarded. -/
structure Stage (σ α : Type) where
  fn : σ → α → σ × α
  guarded : α → Bool
  init : σ

/-- The goroutine of a stage at start, with an empty channel. -/
def Stage.cell (s : Stage σ α) : Cell σ α := ⟨⟨[], false⟩, s.fn, s.guarded, s.init, none, false⟩

/-- document_processing.go:16-35: the system at start. The first stage is the fragment parser, whose
input (the parse results, in order) is at hand. -/
def start (src : Stage σ α) (input : List α) (stages : List (Stage σ α)) (acc : γ) : Sys σ α γ ε :=
  { cells := { src.cell with inp := ⟨input, true⟩ } :: stages.map Stage.cell
    out := ⟨[], false⟩
    cons := .running acc }

end Verif.Pipe
