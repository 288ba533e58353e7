import Verif.Model.Captions
/-! C30: captioned blocks are numbered consecutively per kind. -/
namespace Verif.C30
open Captions

/-! ### Specification -/

/-- What happens while a document is rendered: attributes change, and blocks with a possible caption are met. `wants` tells whether
the block may have a caption. -/
inductive Ev where
  | assign (name : String) (value : Val)
  | unset (name : String)
  | assignAll (attrs : AMap Val)
  | block (kind : Kind) (wants : Bool) (own : Option Text) (title : Text)

mutual
/-- The order of rendering: a table comes before its header, footer and body, in this order; an example comes after its content. An
image wants a caption if it has a (non-empty) title, a table if it has a title attribute, an example always. -/
def events : Block → List Ev
  | .decl name v => [.assign name v]
  | .reset name => [.unset name]
  | .front attrs => [.assignAll attrs]
  | .image title own => [.block .image (!title.isEmpty) own title]
  | .table hasTitle title own header footer body => .block .table hasTitle own title :: (eventsAll header ++ eventsAll footer ++ eventsAll body)
  | .example title own kids => eventsAll kids ++ [.block .example true own title]
  | .box kids => eventsAll kids
def eventsAll : List Block → List Ev
  | [] => []
  | b :: bs => events b ++ eventsAll bs
end

/-- The value of an attribute after some events. -/
def current (k : String) : Option Val → List Ev → Option Val
  | v, [] => v
  | v, .assign name w :: evs => current k (if name = k then some w else v) evs
  | v, .unset name :: evs => current k (if name = k then none else v) evs
  | v, .assignAll attrs :: evs => current k ((attrs.get k).or v) evs
  | v, .block .. :: evs => current k v evs

def asText : Option Val → Option Text
  | some (.str s) => some s
  | _ => none

/-- The caption with the number left open: the block's own one, or else the document's one for the kind with a number. -/
def template (k : Kind) (own : Option Text) (docCaption : Option Text) : Text :=
  match own, docCaption with
  | some c, _ => c
  | none, some (c :: t) => (c :: t) ++ " ".toList ++ k.placeholder ++ ". ".toList
  | none, _ => []

def isBlock : Ev → Bool
  | .block .. => true
  | _ => false

/-- How many of these got a number of the kind. -/
def numberedOf (k : Kind) (l : List Capt) : Nat := (l.filter (fun s => decide (s.kind = k) && decide (s.number ≠ 0))).length

/-- What is to be shown for a block, after the events `pre` and the blocks `before`. -/
def expected (attrs : AMap Val) (pre : List Ev) (before : List Capt) (k : Kind) (wants : Bool) (own : Option Text) (title : Text) : Capt :=
  if wants then
    let t := template k own (asText (current k.captionAttr (attrs.get k.captionAttr) pre))
    if containsText k.placeholder t then ⟨k, replaceAll k.placeholder (itoa (numberedOf k before + 1)) t, numberedOf k before + 1, title⟩
    else ⟨k, t, 0, title⟩
  else ⟨k, [], 0, title⟩

/-! ### Proofs -/

/-- The effect of an event. -/
def step (ctx : RCtx) : Ev → RCtx × List Capt
  | .assign name v => (⟨ctx.attrs.set name v, ctx.counters⟩, [])
  | .unset name => (⟨ctx.attrs.del name, ctx.counters⟩, [])
  | .assignAll attrs => (⟨ctx.attrs.setAll attrs, ctx.counters⟩, [])
  | .block k wants own title =>
    let r := if wants then caption k own ctx else (ctx, [], 0)
    (r.1, [⟨k, r.2.1, r.2.2, title⟩])

def run (ctx : RCtx) : List Ev → RCtx × List Capt
  | [] => (ctx, [])
  | e :: evs => ((run (step ctx e).1 evs).1, (step ctx e).2 ++ (run (step ctx e).1 evs).2)

theorem run_append (a b : List Ev) : ∀ ctx : RCtx, run ctx (a ++ b) = ((run (run ctx a).1 b).1, (run ctx a).2 ++ (run (run ctx a).1 b).2) := by
  induction a with
  | nil => intro ctx; rfl
  | cons e a ih =>
    intro ctx
    show ((run (step ctx e).1 (a ++ b)).1, (step ctx e).2 ++ (run (step ctx e).1 (a ++ b)).2) = _
    rw [ih]
    show _ = ((run (run (step ctx e).1 a).1 b).1, ((step ctx e).2 ++ (run (step ctx e).1 a).2) ++ (run (run (step ctx e).1 a).1 b).2)
    rw [List.append_assoc]

mutual
theorem render_run : ∀ (b : Block) (ctx : RCtx), render b ctx = run ctx (events b)
  | .decl name v, ctx => rfl
  | .reset name, ctx => rfl
  | .front attrs, ctx => rfl
  | .image title own, ctx => by
    unfold render events
    cases title with
    | nil => rfl
    | cons c t => rfl
  | .table hasTitle title own header footer body, ctx => by
    unfold render events
    dsimp only
    rw [renderAll_run header, renderAll_run footer, renderAll_run body]
    show _ = ((run (step ctx (.block .table hasTitle own title)).1 _).1, (step ctx (.block .table hasTitle own title)).2 ++ (run (step ctx (.block .table hasTitle own title)).1 _).2)
    rw [run_append, run_append]
    rfl
  | .example title own kids, ctx => by
    unfold render events
    dsimp only
    rw [renderAll_run kids, run_append]
    rfl
  | .box kids, ctx => by unfold render events; exact renderAll_run kids ctx
theorem renderAll_run : ∀ (bs : List Block) (ctx : RCtx), renderAll bs ctx = run ctx (eventsAll bs)
  | [], ctx => rfl
  | b :: bs, ctx => by
    unfold renderAll eventsAll
    dsimp only
    rw [render_run b, renderAll_run bs, run_append]
end

/-- Front matter and other sets of attributes have each key once. -/
def EvWF : Ev → Prop
  | .assignAll attrs => AMap.WF attrs
  | _ => True

theorem caption_attrs (k : Kind) (own : Option Text) (ctx : RCtx) : (caption k own ctx).1.attrs = ctx.attrs := by
  unfold caption
  split <;> rfl

theorem step_get (ctx : RCtx) (e : Ev) (we : EvWF e) (k : String) : (step ctx e).1.attrs.get k = current k (ctx.attrs.get k) [e] := by
  cases e with
  | assign name v =>
    show AMap.get (AMap.set ctx.attrs name v) k = if name = k then some v else ctx.attrs.get k
    by_cases h : name = k
    · rw [if_pos h, h, AMap.get_set_self]
    · rw [if_neg h, AMap.get_set_ne _ _ (Ne.symm h)]
  | unset name =>
    show AMap.get (AMap.del ctx.attrs name) k = if name = k then none else ctx.attrs.get k
    by_cases h : name = k
    · rw [if_pos h, h, AMap.get_del_self]
    · rw [if_neg h, AMap.get_del_ne _ (Ne.symm h)]
  | assignAll attrs =>
    show AMap.get (AMap.setAll ctx.attrs attrs) k = (attrs.get k).or (ctx.attrs.get k)
    rw [AMap.get_setAll ctx.attrs we]
    cases AMap.get attrs k <;> rfl
  | block kd w own t =>
    show AMap.get (RCtx.attrs (if w then caption kd own ctx else (ctx, [], 0)).1) k = ctx.attrs.get k
    cases w
    · rfl
    · exact congrArg (fun a => AMap.get a k) (caption_attrs kd own ctx)

theorem current_append (k : String) (a b : List Ev) : ∀ v, current k v (a ++ b) = current k (current k v a) b := by
  induction a with
  | nil => intro v; rfl
  | cons e a ih => intro v; cases e <;> exact ih _

theorem run_get (k : String) (evs : List Ev) : ∀ (ctx : RCtx), (∀ e ∈ evs, EvWF e) → (run ctx evs).1.attrs.get k = current k (ctx.attrs.get k) evs := by
  induction evs with
  | nil => intro ctx _; rfl
  | cons e evs ih =>
    intro ctx we
    show (run (step ctx e).1 evs).1.attrs.get k = _
    rw [ih _ (fun e he => we e (by simp [he])), step_get _ _ (we e (by simp))]
    exact (current_append k [e] evs (ctx.attrs.get k)).symm

/-- How far the counter of a kind has counted. -/
def count (ctx : RCtx) (k : Kind) : Nat := (ctx.counters.get k.counter).getD 0

theorem getAndIncrement_eq (c : AMap Nat) (n : String) : getAndIncrement c n = ((c.get n).getD 0 + 1, c.set n ((c.get n).getD 0 + 1)) := by
  unfold getAndIncrement
  cases c.get n <;> rfl

theorem template_eq (k : Kind) (own : Option Text) (attrs : AMap Val) :
    captionTemplate k own attrs = template k own (asText (attrs.get k.captionAttr)) := by
  have e : getAsString attrs k.captionAttr = asText (attrs.get k.captionAttr) := by
    unfold getAsString asText
    cases attrs.get k.captionAttr with
    | none => rfl
    | some v => cases v <;> rfl
  unfold captionTemplate
  rw [e]
  cases own with
  | some c => rfl
  | none =>
    cases asText (attrs.get k.captionAttr) with
    | none => rfl
    | some c => cases c <;> rfl

theorem caption_eq (k : Kind) (own : Option Text) (ctx : RCtx) :
    caption k own ctx =
      if containsText k.placeholder (template k own (asText (ctx.attrs.get k.captionAttr))) then
        (⟨ctx.attrs, ctx.counters.set k.counter (count ctx k + 1)⟩,
          replaceAll k.placeholder (itoa (count ctx k + 1)) (template k own (asText (ctx.attrs.get k.captionAttr))), count ctx k + 1)
      else (ctx, template k own (asText (ctx.attrs.get k.captionAttr)), 0) := by
  unfold caption
  rw [template_eq, getAndIncrement_eq]
  rfl

theorem counter_inj (k k' : Kind) (h : k.counter = k'.counter) : k = k' := by
  cases k <;> cases k' <;> first | rfl | (revert h; decide)

theorem caption_count (k k' : Kind) (own : Option Text) (ctx : RCtx) :
    count (caption k own ctx).1 k' = count ctx k' + (if k = k' ∧ (caption k own ctx).2.2 ≠ 0 then 1 else 0) := by
  rw [caption_eq]
  split
  · unfold count
    dsimp only
    by_cases h : k = k'
    · subst h; rw [AMap.get_set_self, if_pos ⟨rfl, by omega⟩]; rfl
    · rw [AMap.get_set_ne _ _ (fun e => h (counter_inj k k' e.symm)), if_neg (fun e => h e.1)]; rfl
  · rw [if_neg (fun e => e.2 rfl)]; rfl

theorem step_count (ctx : RCtx) (e : Ev) (k : Kind) : count (step ctx e).1 k = count ctx k + numberedOf k (step ctx e).2 := by
  cases e with
  | block kd w own t =>
    cases w with
    | false => simp [step, numberedOf, count]
    | true =>
      show count (caption kd own ctx).1 k = count ctx k + numberedOf k [⟨kd, (caption kd own ctx).2.1, (caption kd own ctx).2.2, t⟩]
      rw [caption_count]
      by_cases h1 : kd = k <;> by_cases h2 : (caption kd own ctx).2.2 = 0 <;> simp [numberedOf, h1, h2]
      · simp [← h1, h2]
      · simp [← h1, h2]
  | _ => simp [step, numberedOf, count]

theorem numberedOf_append (k : Kind) (a b : List Capt) : numberedOf k (a ++ b) = numberedOf k a + numberedOf k b := by
  simp [numberedOf]

theorem run_count (k : Kind) (evs : List Ev) : ∀ ctx : RCtx, count (run ctx evs).1 k = count ctx k + numberedOf k (run ctx evs).2 := by
  induction evs with
  | nil => intro ctx; rfl
  | cons e evs ih =>
    intro ctx
    show count (run (step ctx e).1 evs).1 k = count ctx k + numberedOf k ((step ctx e).2 ++ (run (step ctx e).1 evs).2)
    rw [ih, step_count, numberedOf_append]; omega

theorem run_length (evs : List Ev) : ∀ ctx : RCtx, (run ctx evs).2.length = (evs.filter isBlock).length := by
  induction evs with
  | nil => intro ctx; rfl
  | cons e evs ih =>
    intro ctx
    show ((step ctx e).2 ++ (run (step ctx e).1 evs).2).length = _
    rw [List.length_append, ih]
    cases e with
    | block => rw [List.filter_cons_of_pos (by rfl), List.length_cons, Nat.add_comm]; rfl
    | _ => rw [List.filter_cons_of_neg (by simp [isBlock])]; exact Nat.zero_add _

/-- The nonzero numbers of a kind. -/
def numbersOf (k : Kind) (l : List Capt) : List Nat := (l.filter (fun s => decide (s.kind = k) && decide (s.number ≠ 0))).map Capt.number

theorem run_numbers (k : Kind) (evs : List Ev) : ∀ ctx : RCtx, numbersOf k (run ctx evs).2 = List.range' (count ctx k + 1) (numberedOf k (run ctx evs).2) := by
  induction evs with
  | nil => intro ctx; rfl
  | cons e evs ih =>
    intro ctx
    show numbersOf k ((step ctx e).2 ++ (run (step ctx e).1 evs).2) = List.range' _ (numberedOf k ((step ctx e).2 ++ (run (step ctx e).1 evs).2))
    rw [numberedOf_append]
    have e1 : numbersOf k ((step ctx e).2 ++ (run (step ctx e).1 evs).2) = numbersOf k (step ctx e).2 ++ numbersOf k (run (step ctx e).1 evs).2 := by
      simp [numbersOf]
    rw [e1, ih, step_count]
    have e2 : numbersOf k (step ctx e).2 = List.range' (count ctx k + 1) (numberedOf k (step ctx e).2) := by
      cases e with
      | block kd w own t =>
        cases w with
        | false => simp [step, numbersOf, numberedOf]
        | true =>
          show numbersOf k [⟨kd, (caption kd own ctx).2.1, (caption kd own ctx).2.2, t⟩] = List.range' _ (numberedOf k [⟨kd, (caption kd own ctx).2.1, (caption kd own ctx).2.2, t⟩])
          by_cases h1 : kd = k
          · subst h1
            by_cases h2 : (caption kd own ctx).2.2 = 0
            · simp [numbersOf, numberedOf, h2]
            · have : (caption kd own ctx).2.2 = count ctx kd + 1 := by
                revert h2
                rw [caption_eq]
                split
                · intro _; rfl
                · intro h; exact absurd rfl h
              simp [numbersOf, numberedOf, this]
          · simp [numbersOf, numberedOf, h1]
      | _ => simp [step, numbersOf, numberedOf]
    rw [e2]
    have e3 : count ctx k + numberedOf k (step ctx e).2 + 1 = count ctx k + 1 + numberedOf k (step ctx e).2 := by omega
    rw [e3, List.range'_append_1]

/-! ### The property -/

/-- C30: whatever the document and the attributes, the numbers of the blocks of a kind are 1, 2, 3, ... in the order of rendering. -/
theorem consecutive (attrs : AMap Val) (doc : List Block) (k : Kind) :
    numbersOf k (renderAll doc ⟨attrs, []⟩).2 = List.range' 1 (numberedOf k (renderAll doc ⟨attrs, []⟩).2) := by
  rw [renderAll_run, run_numbers]; rfl

/-- C30: what is shown for each block: nothing for a block that wants no caption; else its own caption, or the one the document has at
this point for its kind, with its number, which is one more than the number of blocks of the kind that were given a number before it;
a caption without place for a number uses none. -/
theorem caption_shown (attrs : AMap Val) (doc : List Block) (wf : ∀ e ∈ eventsAll doc, EvWF e) (pre post : List Ev) (k : Kind) (wants : Bool) (own : Option Text)
    (title : Text) (h : eventsAll doc = pre ++ .block k wants own title :: post) :
    (renderAll doc ⟨attrs, []⟩).2[(pre.filter isBlock).length]? =
      some (expected attrs pre ((renderAll doc ⟨attrs, []⟩).2.take (pre.filter isBlock).length) k wants own title) := by
  rw [renderAll_run, h, run_append]
  dsimp only
  have hl := run_length pre ⟨attrs, []⟩
  rw [← hl, List.getElem?_append_right (Nat.le_refl _), Nat.sub_self, List.take_left]
  have hg := run_get k.captionAttr pre ⟨attrs, []⟩ (fun e he => wf e (by rw [h]; simp [he]))
  have hc := run_count k pre ⟨attrs, []⟩
  have h0 : count ⟨attrs, []⟩ k = 0 := rfl
  show ((step (run ⟨attrs, []⟩ pre).1 (.block k wants own title)).2 ++ _)[0]? = _
  have hs : (step (run ⟨attrs, []⟩ pre).1 (.block k wants own title)).2 =
      [⟨k, (if wants then caption k own (run ⟨attrs, []⟩ pre).1 else ((run ⟨attrs, []⟩ pre).1, [], 0)).2.1,
        (if wants then caption k own (run ⟨attrs, []⟩ pre).1 else ((run ⟨attrs, []⟩ pre).1, [], 0)).2.2, title⟩] := rfl
  rw [hs, List.singleton_append, List.getElem?_cons_zero]
  unfold expected
  cases wants with
  | false => rfl
  | true =>
    simp only [if_true]
    rw [caption_eq, hg, hc, h0, Nat.zero_add]
    split <;> rfl

/-- The events that matter for a kind. -/
def matters (k : Kind) : Ev → Bool
  | .block k' _ _ _ => decide (k' = k)
  | _ => true

/-- C30: the other kinds do not matter: if two documents have the same attribute changes and the same blocks of a kind, the same is
shown for these blocks, whatever the blocks of other kinds. -/
theorem independent (attrs : AMap Val) (k : Kind) (doc doc' : List Block)
    (h : (eventsAll doc).filter (matters k) = (eventsAll doc').filter (matters k)) :
    (renderAll doc ⟨attrs, []⟩).2.filter (fun s => decide (s.kind = k)) = (renderAll doc' ⟨attrs, []⟩).2.filter (fun s => decide (s.kind = k)) := by
  have key : ∀ (evs : List Ev) (ctx ctx' : RCtx), ctx.attrs = ctx'.attrs → count ctx k = count ctx' k →
      (run ctx evs).2.filter (fun s => decide (s.kind = k)) = (run ctx' (evs.filter (matters k))).2.filter (fun s => decide (s.kind = k)) := by
    intro evs
    induction evs with
    | nil => intros; rfl
    | cons e evs ih =>
      intro ctx ctx' ha hc
      show ((step ctx e).2 ++ (run (step ctx e).1 evs).2).filter _ = _
      cases e with
      | block kd w own t =>
        by_cases hk : kd = k
        · subst hk
          rw [List.filter_cons_of_pos (by simp [matters])]
          show _ = ((step ctx' _).2 ++ (run (step ctx' _).1 (evs.filter (matters kd))).2).filter _
          have hcap : (step ctx (.block kd w own t)).2 = (step ctx' (.block kd w own t)).2 := by
            cases w with
            | false => rfl
            | true =>
              show [Capt.mk kd (caption kd own ctx).2.1 (caption kd own ctx).2.2 t] = [Capt.mk kd (caption kd own ctx').2.1 (caption kd own ctx').2.2 t]
              rw [caption_eq, caption_eq, ← ha, ← hc]
              split <;> rfl
          rw [List.filter_append, List.filter_append, hcap]
          congr 1
          apply ih
          · cases w with
            | false => exact ha
            | true => show (caption kd own ctx).1.attrs = (caption kd own ctx').1.attrs; rw [caption_attrs, caption_attrs, ha]
          · rw [step_count, step_count, hc, hcap]
        · rw [List.filter_cons_of_neg (by simp [matters, hk]), List.filter_append]
          have : (step ctx (.block kd w own t)).2.filter (fun s => decide (s.kind = k)) = [] := by simp [step, hk]
          rw [this, List.nil_append]
          apply ih
          · cases w with
            | false => exact ha
            | true => show (caption kd own ctx).1.attrs = _; rw [caption_attrs, ha]
          · rw [step_count, hc]
            have : numberedOf k (step ctx (.block kd w own t)).2 = 0 := by simp [step, numberedOf, hk]
            omega
      | assign n v =>
        rw [List.filter_cons_of_pos (by rfl)]
        exact ih _ _ (by show AMap.set ctx.attrs n v = AMap.set ctx'.attrs n v; rw [ha]) hc
      | unset n =>
        rw [List.filter_cons_of_pos (by rfl)]
        exact ih _ _ (by show AMap.del ctx.attrs n = AMap.del ctx'.attrs n; rw [ha]) hc
      | assignAll a =>
        rw [List.filter_cons_of_pos (by rfl)]
        exact ih _ _ (by show AMap.setAll ctx.attrs a = AMap.setAll ctx'.attrs a; rw [ha]) hc
  rw [renderAll_run, renderAll_run, key (eventsAll doc) ⟨attrs, []⟩ ⟨attrs, []⟩ rfl rfl, key (eventsAll doc') ⟨attrs, []⟩ ⟨attrs, []⟩ rfl rfl, h]

/-! ### Documents with the standard captions -/

def label : Kind → Text
  | .image => "Figure".toList
  | .table => "Table".toList
  | .example => "Example".toList

/-- No own captions, and the captions of the document are left alone. -/
def Standard : Ev → Prop
  | .block _ _ own _ => own = none
  | .assign name _ => ∀ k : Kind, name ≠ k.captionAttr
  | .unset name => ∀ k : Kind, name ≠ k.captionAttr
  | .assignAll attrs => AMap.WF attrs ∧ ∀ k : Kind, attrs.get k.captionAttr = none

def wantsOf (k : Kind) : Ev → Bool
  | .block k' w _ _ => decide (k' = k) && w
  | _ => false

theorem standard_text (k : Kind) (n : Text) : replaceAll k.placeholder n (label k ++ " ".toList ++ k.placeholder ++ ". ".toList) = label k ++ " ".toList ++ n ++ ". ".toList := by
  cases k <;> rfl

theorem standard_contains (k : Kind) : containsText k.placeholder (label k ++ " ".toList ++ k.placeholder ++ ". ".toList) = true := by
  cases k <;> decide

theorem standard_template (k : Kind) : template k none (some (label k)) = label k ++ " ".toList ++ k.placeholder ++ ". ".toList := by
  cases k <;> rfl

theorem run_standard (k : Kind) (evs : List Ev) : ∀ (ctx : RCtx), (∀ k : Kind, ctx.attrs.get k.captionAttr = some (.str (label k))) → (∀ e ∈ evs, Standard e) →
    (((run ctx evs).2.filter (fun s => decide (s.kind = k) && decide (s.number ≠ 0))).map Capt.caption =
      (List.range' (count ctx k + 1) (evs.filter (wantsOf k)).length).map (fun i => label k ++ " ".toList ++ itoa i ++ ". ".toList)) ∧
    numberedOf k (run ctx evs).2 = (evs.filter (wantsOf k)).length := by
  induction evs with
  | nil => intro ctx _ _; exact ⟨rfl, rfl⟩
  | cons e evs ih =>
    intro ctx ha hst
    have he := hst e (by simp)
    have ha' : ∀ k : Kind, (step ctx e).1.attrs.get k.captionAttr = some (.str (label k)) := by
      intro k
      have we : EvWF e := by cases e with
        | assignAll a => exact he.1
        | _ => trivial
      rw [step_get _ _ we, ha]
      cases e with
      | block => rfl
      | assign n v => show (if n = k.captionAttr then _ else _) = _; rw [if_neg (he k)]
      | unset n => show (if n = k.captionAttr then _ else _) = _; rw [if_neg (he k)]
      | assignAll a => show (AMap.get a k.captionAttr).or (some (.str (label k))) = _; rw [he.2 k]; rfl
    obtain ⟨ih1, ih2⟩ := ih (step ctx e).1 ha' (fun e he => hst e (by simp [he]))
    have hr : (run ctx (e :: evs)).2 = (step ctx e).2 ++ (run (step ctx e).1 evs).2 := rfl
    rw [hr, numberedOf_append, List.filter_append, List.map_append, ih1, ih2, step_count]
    have one : ((step ctx e).2.filter (fun s => decide (s.kind = k) && decide (s.number ≠ 0))).map Capt.caption =
        (List.range' (count ctx k + 1) ([e].filter (wantsOf k)).length).map (fun i => label k ++ " ".toList ++ itoa i ++ ". ".toList) ∧
        numberedOf k (step ctx e).2 = ([e].filter (wantsOf k)).length := by
      cases e with
      | block kd w own t =>
        have hown : own = none := he
        subst hown
        cases w with
        | false => simp [step, wantsOf, numberedOf]
        | true =>
          have hcap : (step ctx (.block kd true none t)).2 = [⟨kd, label kd ++ " ".toList ++ itoa (count ctx kd + 1) ++ ". ".toList, count ctx kd + 1, t⟩] := by
            show [Capt.mk kd (caption kd none ctx).2.1 (caption kd none ctx).2.2 t] = _
            rw [caption_eq, ha kd]
            show [Capt.mk kd (if containsText kd.placeholder (template kd none (some (label kd))) then _ else _ : RCtx × Text × Nat).2.1 (if containsText kd.placeholder (template kd none (some (label kd))) then _ else _ : RCtx × Text × Nat).2.2 t] = _
            rw [standard_template, if_pos (standard_contains kd)]
            show [Capt.mk kd (replaceAll kd.placeholder _ (template kd none (some (label kd)))) (count ctx kd + 1) t] = _
            rw [standard_template, standard_text]
          rw [hcap]
          by_cases hk : kd = k
          · subst hk; simp [wantsOf, numberedOf]
          · simp [wantsOf, numberedOf, hk]
      | _ => simp [step, wantsOf, numberedOf]
    obtain ⟨o1, o2⟩ := one
    rw [o1, o2]
    have hf : (e :: evs).filter (wantsOf k) = [e].filter (wantsOf k) ++ evs.filter (wantsOf k) := by
      rw [← List.filter_append]; rfl
    rw [hf, List.length_append, ← List.map_append]
    refine ⟨?_, rfl⟩
    congr 1
    have e3 : count ctx k + ([e].filter (wantsOf k)).length + 1 = count ctx k + 1 + ([e].filter (wantsOf k)).length := by omega
    rw [e3, List.range'_append_1]

/-- C30: in a document without own captions and caption attributes, whatever the configuration, the captions are `Figure 1. `,
`Figure 2. `, ... for the images with a title, `Table 1. `, ... for the tables with a title, and `Example 1. `, ... for the examples. -/
theorem standard_captions (config : AMap Val) (doc : List Block) (h : ∀ e ∈ eventsAll doc, Standard e) (k : Kind) :
    ((renderAll doc (newContext config)).2.filter (fun s => decide (s.kind = k) && decide (s.number ≠ 0))).map Capt.caption =
      (List.range' 1 ((eventsAll doc).filter (wantsOf k)).length).map (fun i => label k ++ " ".toList ++ itoa i ++ ". ".toList) := by
  rw [renderAll_run]
  exact (run_standard k (eventsAll doc) (newContext config) (by
    intro k
    unfold newContext
    cases k
    · show AMap.get _ "figure-caption" = _
      rw [AMap.get_set_ne _ _ (by decide), AMap.get_set_ne _ _ (by decide), AMap.get_set_ne _ _ (by decide), AMap.get_set_self]; rfl
    · show AMap.get _ "table-caption" = _
      rw [AMap.get_set_ne _ _ (by decide), AMap.get_set_self]; rfl
    · show AMap.get _ "example-caption" = _
      rw [AMap.get_set_ne _ _ (by decide), AMap.get_set_ne _ _ (by decide), AMap.get_set_self]; rfl) h).1

/-! ### Examples and findings -/

private def doc1 : List Block :=
  [.image "a".toList none, .table true "b".toList none [] [] [], .image [] none, .image "c".toList none, .decl "figure-caption" (.str "Abb.".toList),
   .box [.image "d".toList none], .image "e".toList (some "Own: ".toList), .image "f".toList none]
example : (renderAll doc1 (newContext [])).2.map Capt.text = ["Figure 1. a", "Table 1. b", "", "Figure 2. c", "Abb. 3. d", "Own: e", "Abb. 4. f"].map String.toList := by decide
example : ∀ e ∈ eventsAll [.image "a".toList none, .decl "x" (.str []), .image "b".toList none], Standard e := by
  intro e he
  simp only [eventsAll, events, List.append_nil, List.cons_append, List.nil_append, List.mem_cons, List.not_mem_nil, or_false] at he
  rcases he with rfl | rfl | rfl
  · rfl
  · intro k; cases k <;> decide
  · rfl

/-- FINDING: an example without title uses up a number although nothing is shown for it: the next example with a title has number 2. -/
theorem finding_untitled_example :
    (renderAll [.example [] none [], .example "t".toList none []] (newContext [])).2.map Capt.text = ["", "Example 2. t"].map String.toList := by decide

/-- FINDING: an example inside of an example gets its number before the outer one, although it comes later in the document. -/
theorem finding_nested_example :
    (renderAll [.example "outer".toList none [.example "inner".toList none []]] (newContext [])).2.map Capt.text =
      ["Example 1. inner", "Example 2. outer"].map String.toList := by decide

/-- FINDING: the footer of a table is rendered before its body, so that images there are numbered out of order. -/
theorem finding_footer_first :
    (renderAll [.table false [] none [] [.image "footer".toList none] [.image "body".toList none]] (newContext [])).2.map Capt.text =
      ["", "Figure 1. footer", "Figure 2. body"].map String.toList := by decide

/-- FINDING: the captions of the configuration (`WithFigureCaption`, configuration.go:51-56) have no effect: they are overwritten
when rendering starts. -/
theorem finding_configured_caption_ignored (config : AMap Val) (v : Val) :
    getAsString (newContext (config.set "figure-caption" v)).attrs "figure-caption" = some "Figure".toList := by
  unfold getAsString newContext
  dsimp only
  rw [AMap.get_set_ne _ _ (by decide), AMap.get_set_ne _ _ (by decide), AMap.get_set_ne _ _ (by decide), AMap.get_set_self]

end Verif.C30
