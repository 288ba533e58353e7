import Verif.Props.Conditionals
/-!
C05 — level offsets shift included sections consistently.
C37 — delimited blocks protect the headings they contain in included files.
-/
namespace Verif.C05

/-! ### Specification -/

/-- A heading line of the given level: `level + 1` equal signs, a space, the title. -/
def heading (level : Int) (title : Text) : Text := List.replicate (level + 1).toNat '=' ++ ' ' :: title

/-- A relative offset. -/
def rel (n : Int) : Offset := ⟨false, n⟩

/-- No prefix of the offsets takes the level below -1 (where `strings.Repeat` would panic). -/
def Feasible : Int → List Int → Prop
  | l, [] => -1 ≤ l
  | l, o :: os => -1 ≤ l ∧ Feasible (l + o) os

/-! ### Lemmas -/

theorem replaceFirst_prefix (old new rest : Text) (h : old ≠ []) :
    replaceFirst old new (old ++ rest) = new ++ rest := by
  cases old with
  | nil => exact absurd rfl h
  | cons c cs =>
    have : (c :: cs).isPrefixOf ((c :: cs) ++ rest) = true := by
      rw [List.isPrefixOf_iff_prefix]; exact List.prefix_append _ _
    simp only [List.cons_append] at this ⊢
    rw [replaceFirst, if_pos this, ← List.cons_append, List.drop_left]

theorem offsetLevel_heading (l o : Int) (t : Text) (h1 : -1 ≤ l) (h2 : -1 ≤ l + o) :
    RawSection.offsetLevel ⟨l, heading l t⟩ o = .ok ⟨l + o, heading (l + o) t⟩ := by
  unfold RawSection.offsetLevel repeatEq
  rw [if_neg (by simp; omega), if_neg (by simp; omega)]
  simp only [Except.ok.injEq, RawSection.mk.injEq, true_and]
  unfold heading
  have e : List.replicate (l + 1).toNat '=' ++ ' ' :: t = (List.replicate (l + 1).toNat '=' ++ [' ']) ++ t := by simp
  rw [e, replaceFirst_prefix _ _ _ (by simp)]
  have : l + 1 + o = l + o + 1 := by omega
  simp [this]

theorem offsetLevel_panic (l o : Int) (t : Text) (h : l + o < -1) :
    RawSection.offsetLevel ⟨l, t⟩ o = .error .panic := by
  unfold RawSection.offsetLevel repeatEq
  simp only
  by_cases h1 : l + 1 < 0
  · rw [if_pos h1]
  · rw [if_neg h1, if_pos (by omega)]

theorem apply_rel (l o : Int) (t : Text) (h1 : -1 ≤ l) (h2 : -1 ≤ l + o) :
    (rel o).apply ⟨l, heading l t⟩ = .ok (rel o, ⟨l + o, heading (l + o) t⟩) := by
  unfold Offset.apply rel
  simp [offsetLevel_heading l o t h1 h2]

theorem applyOffsets_rel : ∀ (os : List Int) (l : Int) (t : Text), Feasible l os →
    applyOffsets (os.map rel) ⟨l, heading l t⟩ = .ok (os.map rel, ⟨l + os.sum, heading (l + os.sum) t⟩) := by
  intro os
  induction os with
  | nil => intro l t _; simp [applyOffsets]
  | cons o os ih =>
    intro l t hf
    obtain ⟨h1, h2⟩ := hf
    have h2' : -1 ≤ l + o := by cases os <;> simp [Feasible] at h2 <;> omega
    simp only [List.map_cons, applyOffsets, apply_rel l o t h1 h2', ih (l + o) t h2, List.sum_cons]
    have : l + o + os.sum = l + (o + os.sum) := by omega
    rw [this]

/-- Apply the offsets in force to a sequence of sections, one after the other, threading the shared
offsets. -/
def applySeq : List Offset → List RawSection → Except Err (List Offset × List RawSection)
  | os, [] => .ok (os, [])
  | os, s :: ss =>
    match applyOffsets os s with
    | .error e => .error e
    | .ok (os, s) =>
      match applySeq os ss with
      | .error e => .error e
      | .ok (os, ss) => .ok (os, s :: ss)

theorem applySeq_rel (os : List Int) : ∀ (secs : List (Int × Text)), (∀ s ∈ secs, Feasible s.1 os) →
    applySeq (os.map rel) (secs.map (fun s => ⟨s.1, heading s.1 s.2⟩)) =
      .ok (os.map rel, secs.map (fun s => ⟨s.1 + os.sum, heading (s.1 + os.sum) s.2⟩)) := by
  intro secs
  induction secs with
  | nil => intro _; rfl
  | cons s secs ih =>
    intro h
    simp only [List.map_cons, applySeq, applyOffsets_rel os s.1 s.2 (h s (by simp)),
      ih (fun x hx => h x (by simp [hx]))]

/-! ### Theorems -/

/-- **C05 (relative).** With relative offsets o1..on in force, every section of level l is emitted
as a heading of level l+o1+…+on with the same title, and the offsets stay in force unchanged. -/
theorem relative_offsets (os : List Int) (secs : List (Int × Text)) (h : ∀ s ∈ secs, Feasible s.1 os) :
    applySeq (os.map rel) (secs.map (fun s => ⟨s.1, heading s.1 s.2⟩)) =
      .ok (os.map rel, secs.map (fun s => ⟨s.1 + os.sum, heading (s.1 + os.sum) s.2⟩)) :=
  applySeq_rel os secs h

/-- **C05 (absolute).** With an absolute offset `a` in force, the first section is emitted at level
`a` and every later one keeps its distance to the first; relative offsets of nested includes add up. -/
theorem absolute_offset (a : Int) (os : List Int) (l1 : Int) (t1 : Text) (secs : List (Int × Text))
    (hl1 : -1 ≤ l1) (h1 : Feasible a os) (h : ∀ s ∈ secs, -1 ≤ s.1 ∧ Feasible (a + (s.1 - l1)) os) :
    applySeq (⟨true, a⟩ :: os.map rel) ((l1, t1) :: secs |>.map (fun s => ⟨s.1, heading s.1 s.2⟩)) =
      .ok (rel (a - l1) :: os.map rel, ((l1, t1) :: secs).map (fun s =>
        ⟨a + (s.1 - l1) + os.sum, heading (a + (s.1 - l1) + os.sum) s.2⟩)) := by
  have ha : -1 ≤ a := by cases os <;> simp [Feasible] at h1 <;> omega
  have first : applyOffsets (⟨true, a⟩ :: os.map rel) ⟨l1, heading l1 t1⟩ =
      .ok (rel (a - l1) :: os.map rel, ⟨a + os.sum, heading (a + os.sum) t1⟩) := by
    have e : l1 + (a - l1) = a := by omega
    simp only [applyOffsets, Offset.apply, if_true,
      offsetLevel_heading l1 (a - l1) t1 hl1 (by omega), e, applyOffsets_rel os a t1 h1]
    rfl
  have rest := applySeq_rel ((a - l1) :: os) secs (fun s hs => by
    have e : s.1 + (a - l1) = a + (s.1 - l1) := by omega
    refine ⟨(h s hs).1, ?_⟩
    rw [e]; exact (h s hs).2)
  simp only [List.map_cons, List.sum_cons] at rest
  simp only [List.map_cons, applySeq, first, rest]
  have e0 : a + (l1 - l1) + os.sum = a + os.sum := by omega
  rw [e0]
  congr 3
  apply List.map_congr_left
  intro s _
  have : s.1 + (a - l1 + os.sum) = a + (s.1 - l1) + os.sum := by omega
  rw [this]

/-- **C05, finding.** Offsets are not clamped: an offset that takes a heading above the top level
crashes the preprocessor (for instance `leveloffset=-2` on a document title). -/
theorem finding_negative_level_panics (l o : Int) (os : List Offset) (t : Text) (h : l + o < -1) :
    applyOffsets (rel o :: os) ⟨l, heading l t⟩ = .error .panic := by
  simp [applyOffsets, Offset.apply, rel, offsetLevel_panic l o _ h]

/-- A line of an included file: text or a heading. -/
inductive Line where
  | text (t : Text)
  | head (level : Nat) (title : Text)

/-- The source text of a line. -/
def Line.src : Line → Text
  | .text t => t
  | .head l t => heading l t

/-- A line with its heading, if any, shifted by `n` levels. -/
def Line.shift (n : Int) : Line → Text
  | .text t => t
  | .head l t => heading (l + n) t

/-- The preprocessor sees the line as what it is. -/
def Line.SeenAs (env : Env) (ctx : Ctx) (l : Line) : Prop :=
  env.classify ctx.sectEnabled ctx.within l.src = match l with
    | .text _ => none
    | .head lvl t => some (.sect lvl (heading lvl t))

theorem runEvs_lines (env : Env) (inc) (ctx : Ctx) (tr : Tracker) (os : List Int) (ho : ctx.offsets = os.map rel) :
    ∀ (lines : List Line), (∀ l ∈ lines, l.SeenAs env ctx) →
    (∀ (lvl : Nat) t, Line.head lvl t ∈ lines → Feasible lvl os) →
    C01.runEvs env inc ctx tr (lines.map Line.src) = .ok (lines.map (fun l => .emit (l.shift os.sum)), ctx, tr) := by
  intro lines
  induction lines with
  | nil => intro _ _; rfl
  | cons l ls ih =>
    intro h hf
    have hl := h l (by simp)
    have ih' := ih (fun x hx => h x (by simp [hx])) (fun a b hx => hf a b (by simp [hx]))
    simp only [List.map_cons, C01.runEvs]
    have step : C01.stepEv env inc ctx tr l.src = .ok (.emit (l.shift os.sum), ctx, tr) := by
      unfold C01.stepEv
      unfold Line.SeenAs at hl
      rw [hl]
      cases l with
      | text t => rfl
      | head lvl t =>
        simp only [ho, applyOffsets_rel os lvl t (hf lvl t (by simp))]
        rw [← ho]
        rfl
    rw [step]
    simp only [ih']

/-- **C05**, on the text of a whole included file: with relative offsets in force, preprocessing
yields the same lines with every heading shifted by the sum of the offsets. -/
theorem shifted_file (env : Env) (n : Nat) (ctx : Ctx) (os : List Int) (lines : List Line)
    (ho : ctx.offsets = os.map rel) (hseen : ∀ l ∈ lines, l.SeenAs env ctx)
    (hf : ∀ (lvl : Nat) t, Line.head lvl t ∈ lines → Feasible lvl os)
    (hok : ∀ l ∈ lines, C02.OkLine l.src) :
    preprocess env (n + 1) ctx (unlines (lines.map Line.src)) =
      .ok (joinLF (lines.map (Line.shift os.sum)), ctx.offsets) := by
  have hs : scanLines (unlines (lines.map Line.src)) = lines.map Line.src := by
    rw [C02.scanLines_of_phys (physLines_unlines _ (fun l hl => by
      obtain ⟨x, hx, rfl⟩ := List.mem_map.1 hl; exact (hok x hx).1)) (fun l hl => by
      obtain ⟨x, hx, rfl⟩ := List.mem_map.1 hl; exact (C02.fits_iff _).2 (hok x hx).2.2)]
    rw [List.map_map]
    apply List.map_congr_left
    intro l hl
    exact dropCR_of_not_suffix _ (hok l hl).2.1
  rw [C01.preprocess_eq, hs, runEvs_lines env _ ctx [] os ho lines hseen hf]
  simp only
  have : lines.map (fun l => C01.Ev.emit (l.shift os.sum)) = (lines.map (Line.shift os.sum)).map C01.Ev.emit := by
    rw [List.map_map]; rfl
  rw [this, C02.visible_emits]

-- non-vacuity: offsets +1 and +2 on headings of level 0, 1
example : Feasible 0 [1, 2] ∧ Feasible 1 [1, 2, -3] := by simp [Feasible]
example : applySeq ([1, 2].map rel) [⟨0, heading 0 ['a']⟩, ⟨1, heading 1 ['b']⟩] =
    .ok ([1, 2].map rel, [⟨3, "==== a".toList⟩, ⟨4, "===== b".toList⟩]) := rfl
example : applySeq [⟨true, 2⟩] [⟨1, heading 1 ['a']⟩, ⟨2, heading 2 ['b']⟩] =
    .ok ([rel 1], [⟨2, "=== a".toList⟩, ⟨3, "==== b".toList⟩]) := rfl
-- a heading whose title is separated by a tab is not shifted (finding: `Replace` looks for a space)
example : applyOffsets [rel 1] ⟨1, "==\ttitle".toList⟩ = .ok ([rel 1], ⟨2, "==\ttitle".toList⟩) := rfl

end Verif.C05

namespace Verif.C37

/-! ### Specification -/

/-- A block delimiter: kind and length. -/
abbrev Delim := String × Nat

mutual
/-- The delimiters of a sequence of properly nested blocks: `Blocks d ds` where `d` is the delimiter
of the immediately enclosing block (if any), which cannot delimit an inner block at that level. -/
inductive Blocks : Option Delim → List Delim → Prop
  | nil (d) : Blocks d []
  | cons {d b rest} : Block d b → Blocks d rest → Blocks d (b ++ rest)
/-- One block with its content. -/
inductive Block : Option Delim → List Delim → Prop
  | mk {d : Option Delim} {x : Delim} {inner : List Delim} :
      d ≠ some x → Blocks (some x) inner → Block d (x :: inner ++ [x])
end

/-- Track a sequence of delimiters. -/
def trackAll (t : Tracker) (ds : List Delim) : Tracker := ds.foldl (fun t d => track t d.1 d.2) t

theorem trackAll_append (t : Tracker) (a b : List Delim) : trackAll t (a ++ b) = trackAll (trackAll t a) b := by
  simp [trackAll]

theorem track_push (t : Tracker) (x : Delim) (h : t.getLast? ≠ some x) : track t x.1 x.2 = t ++ [x] := by
  unfold track; rw [if_neg h]

theorem track_pop (t : Tracker) (x : Delim) : track (t ++ [x]) x.1 x.2 = t := by
  unfold track; simp

mutual
theorem blocks_restore {d : Option Delim} {ds : List Delim} (h : Blocks d ds) (t : Tracker) (ht : t.getLast? = d) :
    trackAll t ds = t := by
  match h with
  | .nil _ => rfl
  | .cons hb hr => rw [trackAll_append, block_restore hb t ht, blocks_restore hr t ht]
theorem block_restore {d : Option Delim} {ds : List Delim} (h : Block d ds) (t : Tracker) (ht : t.getLast? = d) :
    trackAll t ds = t := by
  match h with
  | .mk (x := x) (inner := inner) hne hi =>
    have h1 : trackAll t (x :: inner ++ [x]) = trackAll (trackAll (track t x.1 x.2) inner) [x] := by
      rw [← trackAll_append]; rfl
    rw [h1, track_push t x (by rw [ht]; exact hne), blocks_restore hi (t ++ [x]) (by simp)]
    exact track_pop t x
end

/-- Strictly inside a block, the tracker is not empty. -/
theorem inside_nonempty {d : Option Delim} {x : Delim} {pre inner post : List Delim} (t : Tracker) (ht : t.getLast? = d)
    (hne : d ≠ some x) (hi : Blocks (some x) inner) (hpre : Blocks d pre) :
    trackAll t (pre ++ x :: inner ++ post) = trackAll (t ++ [x]) post := by
  have : pre ++ x :: inner ++ post = pre ++ ([x] ++ (inner ++ post)) := by simp
  rw [this, trackAll_append, trackAll_append, trackAll_append, blocks_restore hpre t ht]
  show trackAll (trackAll (track t x.1 x.2) inner) post = _
  rw [track_push t x (by rw [ht]; exact hne), blocks_restore hi (t ++ [x]) (by simp)]

/-- **C37.** At the top level of a file, after any sequence of properly nested and closed blocks, a
heading is recognised again; inside a block opened by `x`, after any properly nested inner blocks,
it is not. -/
theorem heading_recognised_iff (pre inner : List Delim) (x : Delim) (hpre : Blocks none pre)
    (hi : Blocks (some x) inner) :
    (trackAll [] pre).isEmpty = true ∧ (trackAll [] (pre ++ x :: inner)).isEmpty = false := by
  constructor
  · rw [blocks_restore hpre [] rfl]; rfl
  · have := inside_nonempty (post := []) [] (d := none) (x := x) rfl (by simp) hi hpre
    rw [List.append_nil] at this
    rw [this]; rfl

/-- The flag consulted by the heading rule is exactly the state of the tracker after each
delimiter line (`GlobalStore(withinDelimitedBlockKey, len(t.stack) > 0)`). -/
theorem within_follows_tracker (env : Env) (inc) (st st' : St) (line : Text) (k : String) (n : Nat) (raw : Text)
    (h : env.classify st.ctx.sectEnabled st.ctx.within line = some (.delim k n raw))
    (hs : stepLine env inc st line = .ok st') :
    st'.tracker = track st.tracker k n ∧ st'.ctx.within = !(track st.tracker k n).isEmpty := by
  unfold stepLine at hs
  rw [h] at hs
  simp only [Except.ok.injEq] at hs
  subst hs
  exact ⟨rfl, rfl⟩

-- non-vacuity: a listing block inside an example block
example : Blocks none [("example", 4), ("listing", 4), ("listing", 4), ("example", 4)] :=
  .cons (b := [("example", 4), ("listing", 4), ("listing", 4), ("example", 4)])
    (.mk (x := ("example", 4)) (inner := [("listing", 4), ("listing", 4)]) (by simp)
      (.cons (b := [("listing", 4), ("listing", 4)]) (.mk (x := ("listing", 4)) (inner := []) (by simp) (.nil _)) (.nil _)))
    (.nil _)

/-- **Finding.** The content of verbatim blocks is tracked too: a listing block whose text contains
a lone line of four equal signs leaves the tracker open, so that every later heading of the included
file is ignored by the level offset. -/
theorem finding_delimiter_in_listing_breaks_tracking :
    (trackAll [] [("listing", 4), ("example", 4), ("listing", 4)]).isEmpty = false := by decide

/-- **Finding.** Literal blocks are tracked as listing blocks, so that a line of four dots inside a
listing block is taken for its end. -/
theorem finding_literal_closes_listing (lit listing : Delim) (h : lit = ("listing", 4)) (h' : listing = ("listing", 4)) :
    (trackAll [] [listing, lit]).isEmpty = true := by subst h h'; decide

end Verif.C37
