import Verif.Model.AttrRefs
import Verif.Props.Context
import Verif.Props.Merge
/-!
C23 — attribute references yield the value the attribute has at that point of the document.
C24 — counters count.
-/
namespace Verif.C24
open Verif.AttrRefs

/-! ### Specification -/

/-- An occurrence of `{counter:name}`, `{counter:name:start}` or `{counter2:name}`. -/
structure Occ where
  name : String
  start : Option CVal
  hidden : Bool

mutual
/-- The occurrences of counters in an element, in reading order. -/
def occs : REl → List Occ
  | .counter name v h => [⟨name, v, h⟩]
  | .parent _ es => occsIn es
  | .ref _ => []
  | .str _ => []
  | .val _ => []
  | .leaf _ => []
/-- The occurrences of counters in a sequence of elements. -/
def occsIn : List REl → List Occ
  | [] => []
  | e :: es => occs e ++ occsIn es
end

/-- `k` steps further: 1, 2, 3 or a, b, c. -/
def plus : CVal → Nat → CVal
  | .int n, k => .int (n + k)
  | .rune c, k => .rune (c + k)

/-- The start values (if any) given by the occurrences of counter `n`, the last one first. -/
def starts (n : String) (h : List Occ) : List (Option CVal) := ((h.filter (fun o => o.name = n)).map Occ.start).reverse

/-- The value of counter `n` after the occurrences `h`: only those of `n` matter; one step for each occurrence after the last one
that gives a start value, starting from that value; from zero if no occurrence gives one. -/
def value (n : String) (h : List Occ) : CVal :=
  let steps := ((starts n h).takeWhile Option.isNone).length
  match (starts n h).dropWhile Option.isNone with
  | start :: _ => plus (start.getD (.int 0)) steps
  | [] => plus (.int 0) steps

/-- What occurrence `o` after the occurrences `h` is replaced with. -/
def shown (h : List Occ) (o : Occ) : Text := if o.hidden then [] else (value o.name (h ++ [o])).text

/-! ### The value -/

theorem starts_none (n : String) (h : List Occ) (hs : ∀ o ∈ h, o.name = n → o.start = none) : ∀ s ∈ starts n h, s.isNone = true := by
  intro s hmem
  simp only [starts, List.mem_reverse, List.mem_map, List.mem_filter, decide_eq_true_eq] at hmem
  obtain ⟨o, ⟨ho, hn⟩, rfl⟩ := hmem
  rw [hs o ho hn]; rfl

theorem starts_append (n : String) (h h' : List Occ) : starts n (h ++ h') = starts n h' ++ starts n h := by
  simp [starts]

theorem starts_length (n : String) (h : List Occ) : (starts n h).length = (h.filter (fun o => o.name = n)).length := by simp [starts]

theorem starts_cons (n : String) (o : Occ) (h : List Occ) : starts n (o :: h) = if o.name = n then starts n h ++ [o.start] else starts n h := by
  by_cases ho : o.name = n <;> simp [starts, ho]

theorem takeWhile_all {α} (p : α → Bool) : ∀ (l r : List α), (∀ x ∈ l, p x = true) → (l ++ r).takeWhile p = l ++ r.takeWhile p
  | [], _, _ => rfl
  | x :: l, r, h => by
    rw [List.cons_append, List.takeWhile_cons, h x (by simp), if_pos rfl, takeWhile_all p l r (fun y hy => h y (by simp [hy]))]; rfl

theorem dropWhile_all {α} (p : α → Bool) : ∀ (l r : List α), (∀ x ∈ l, p x = true) → (l ++ r).dropWhile p = r.dropWhile p
  | [], _, _ => rfl
  | x :: l, r, h => by
    rw [List.cons_append, List.dropWhile_cons, h x (by simp), if_pos rfl, dropWhile_all p l r (fun y hy => h y (by simp [hy]))]

/-- C24: without start values, the value is the number of occurrences of the counter. -/
theorem counts (n : String) (h : List Occ) (hs : ∀ o ∈ h, o.name = n → o.start = none) :
    value n h = .int (h.filter (fun o => o.name = n)).length := by
  have hall := starts_none n h hs
  have h1 := takeWhile_all Option.isNone (starts n h) [] hall
  have h2 := dropWhile_all Option.isNone (starts n h) [] hall
  simp only [List.append_nil, List.takeWhile_nil, List.dropWhile_nil] at h1 h2
  unfold value
  rw [h1, h2, starts_length]
  show CVal.int (0 + _) = _
  rw [Nat.zero_add]

/-- C24: after an explicit start value `v` and `j` more occurrences of the counter, the value is `j` steps after `v`. -/
theorem counts_from (n : String) (h h' : List Occ) (v : CVal) (hid : Bool) (hs : ∀ o ∈ h', o.name = n → o.start = none) :
    value n (h ++ ⟨n, some v, hid⟩ :: h') = plus v (h'.filter (fun o => o.name = n)).length := by
  have hall := starts_none n h' hs
  have e : starts n (h ++ ⟨n, some v, hid⟩ :: h') = starts n h' ++ (some v :: starts n h) := by
    rw [starts_append, starts_cons, if_pos rfl]; simp
  unfold value
  rw [e, takeWhile_all _ _ _ hall, dropWhile_all _ _ _ hall]
  simp [starts_length]

/-- C24: counters are independent: occurrences of another counter make no difference. -/
theorem independent (n : String) (h h' : List Occ) (o : Occ) (ho : o.name ≠ n) : value n (h ++ o :: h') = value n (h ++ h') := by
  have e : starts n (h ++ o :: h') = starts n (h ++ h') := by
    rw [starts_append, starts_cons, if_neg ho, starts_append]
  unfold value
  rw [e]

/-- C24: hidden occurrences are replaced with nothing, -/
theorem hidden_shows_nothing (h : List Occ) (o : Occ) (ho : o.hidden = true) : shown h o = [] := by
  unfold shown; rw [if_pos ho]

/-- but they count like any other. -/
theorem hidden_counts (n : String) (h h' : List Occ) (m : String) (v : Option CVal) :
    value n (h ++ ⟨m, v, true⟩ :: h') = value n (h ++ ⟨m, v, false⟩ :: h') := by
  have e : starts n (h ++ ⟨m, v, true⟩ :: h') = starts n (h ++ ⟨m, v, false⟩ :: h') := by
    rw [starts_append, starts_cons, starts_append, starts_cons]
  unfold value
  rw [e]

/-- The next value, from the value before. -/
theorem value_step (h : List Occ) (o : Occ) :
    value o.name (h ++ [o]) = match o.start with
      | some v => v
      | none => (value o.name h).succ := by
  have e : starts o.name (h ++ [o]) = o.start :: starts o.name h := by
    rw [starts_append, starts_cons, if_pos rfl]; rfl
  unfold value
  rw [e]
  cases ho : o.start with
  | some v => cases v <;> simp [List.takeWhile, List.dropWhile, plus]
  | none =>
    simp only [List.takeWhile_cons, List.dropWhile_cons, Option.isNone_none, if_true, List.length_cons]
    cases (starts o.name h).dropWhile Option.isNone with
    | nil => simp [plus, CVal.succ, Nat.add_comm]
    | cons s ss => cases hs : s.getD (.int 0) <;> simp [plus, CVal.succ, hs, Nat.add_assoc]

theorem value_none (n : String) (h : List Occ) (hn : h.any (fun o => o.name = n) = false) : value n h = .int 0 := by
  have : starts n h = [] := by
    simp only [starts, List.reverse_eq_nil_iff, List.map_eq_nil_iff, List.filter_eq_nil_iff, decide_eq_true_eq]
    simpa using hn
  unfold value
  rw [this]; rfl

end Verif.C24

namespace Verif.C23
open Verif.AttrRefs Verif.C24

/-! ### Specification -/

/-- What a reference to an attribute is replaced with: itself if the attribute is not set; the value as text if the value is a
string, or can be rendered (formatted values); otherwise the bare value. -/
def reference (render : Nat → Option Text) (name : String) : Option Val → REl
  | none => .str ("{".toList ++ name.toList ++ "}".toList)
  | some (.str t) => .str t
  | some (.int i) => .val (.int i)
  | some (.flt f) => .val (.flt f)
  | some (.other 0) => .val (.other 0)
  | some (.other (i + 1)) => match render (i + 1) with
    | some t => .str t
    | none => .val (.other (i + 1))

/-- A reference to an attribute that is set. -/
def setRef (get : String → Option Val) : REl → Bool
  | .ref name => (get name).isSome
  | _ => false

mutual
/-- An element with references and counters filled in, where `h` are the occurrences of counters before it. -/
def fill (render : Nat → Option Text) (get : String → Option Val) (reparse : Option (List REl → List REl)) (h : List Occ) : REl → REl
  | .ref name => reference render name (get name)
  | .counter name v hid => .str (shown h ⟨name, v, hid⟩)
  | .parent n es => .parent n (match reparse with
    | some f => if es.any (setRef get) then f (fillIn render get reparse h es) else fillIn render get reparse h es
    | none => fillIn render get reparse h es)
  | .str t => .str t
  | .val v => .val v
  | .leaf n => .leaf n
/-- A sequence of elements, filled in. -/
def fillIn (render : Nat → Option Text) (get : String → Option Val) (reparse : Option (List REl → List REl)) (h : List Occ) :
    List REl → List REl
  | [] => []
  | e :: es => fill render get reparse h e :: fillIn render get reparse (h ++ occs e) es
end

/-- The content of a paragraph, filled in; with the second phase of parsing if a reference was replaced. -/
def filled (render : Nat → Option Text) (get : String → Option Val) (reparse : Option (List REl → List REl)) (h : List Occ) (es : List REl) :
    List REl :=
  match reparse with
  | some f => if es.any (setRef get) then f (fillIn render get reparse h es) else fillIn render get reparse h es
  | none => fillIn render get reparse h es

/-! ### Content -/

/-- The counters are those of the occurrences so far. -/
def Rep (cs : AMap CVal) (h : List Occ) : Prop :=
  ∀ n, AMap.get cs n = if h.any (fun o => o.name = n) then some (value n h) else none

theorem Rep_getD {cs : AMap CVal} {h : List Occ} (r : Rep cs h) (n : String) : (AMap.get cs n).getD (.int 0) = value n h := by
  rw [r n]
  cases hn : h.any (fun o => o.name = n) with
  | true => rfl
  | false => rw [value_none n h hn]; rfl

theorem counter_step {cs : AMap CVal} {h : List Occ} (r : Rep cs h) (o : Occ) :
    Rep (valueForCounter cs o.name o.start o.hidden).1 (h ++ [o]) ∧ (valueForCounter cs o.name o.start o.hidden).2 = shown h o := by
  have hv : (match o.start with
      | some v => v
      | none => ((AMap.get cs o.name).getD (.int 0)).succ) = value o.name (h ++ [o]) := by
    rw [value_step, Rep_getD r]
  constructor
  · intro n
    show AMap.get (AMap.set cs o.name (match o.start with
      | some v => v
      | none => ((AMap.get cs o.name).getD (.int 0)).succ)) n = _
    rw [hv]
    by_cases hn : n = o.name
    · subst hn
      rw [AMap.get_set_self, if_pos (by simp)]
    · rw [AMap.get_set_ne _ _ hn, r n]
      have e : value n (h ++ [o]) = value n h := by
        rw [independent n h [] o (fun e => hn e.symm), List.append_nil]
      have hf : decide (o.name = n) = false := decide_eq_false (fun e => hn e.symm)
      rw [e, List.any_append, List.any_cons, List.any_nil, hf, Bool.or_false, Bool.or_false]
  · show (if o.hidden then [] else CVal.text (match o.start with
      | some v => v
      | none => ((AMap.get cs o.name).getD (.int 0)).succ)) = _
    rw [hv]; rfl

theorem valueForRef_spec (render : Nat → Option Text) (get : String → Option Val) (name : String) :
    elementFor (valueForRef render get name).1 = reference render name (get name) ∧
    (valueForRef render get name).2 = (get name).isSome := by
  unfold valueForRef
  cases get name with
  | none => exact ⟨rfl, rfl⟩
  | some v =>
    cases v with
    | str t => exact ⟨rfl, rfl⟩
    | int i => exact ⟨rfl, rfl⟩
    | flt f => exact ⟨rfl, rfl⟩
    | other i =>
      cases i with
      | zero => exact ⟨rfl, rfl⟩
      | succ i =>
        dsimp only [reference]
        cases render (i + 1) with
        | none => exact ⟨rfl, rfl⟩
        | some t => exact ⟨rfl, rfl⟩

mutual
theorem one_spec (render : Nat → Option Text) (get : String → Option Val) (reparse : Option (List REl → List REl)) :
    ∀ (e : REl) (cs : AMap CVal) (h : List Occ), Rep cs h →
      (replaceOne render get reparse cs e).1 = fill render get reparse h e ∧
      Rep (replaceOne render get reparse cs e).2.1 (h ++ occs e) ∧
      (replaceOne render get reparse cs e).2.2 = setRef get e
  | .ref name, cs, h, r => by
    refine ⟨(valueForRef_spec render get name).1, ?_, (valueForRef_spec render get name).2⟩
    show Rep cs (h ++ [])
    rwa [List.append_nil]
  | .counter name v hid, cs, h, r => by
    obtain ⟨h1, h2⟩ := counter_step r ⟨name, v, hid⟩
    refine ⟨?_, h1, rfl⟩
    show REl.str (valueForCounter cs name v hid).2 = _
    exact congrArg REl.str h2
  | .parent n es, cs, h, r => by
    obtain ⟨h1, h2, h3⟩ := loop_spec render get reparse es cs h r
    refine ⟨?_, h2, rfl⟩
    show REl.parent n (finish reparse (replaceLoop render get reparse cs es).replaced (replaceLoop render get reparse cs es).els) = _
    rw [h1, h3]
    cases reparse <;> rfl
  | .str t, cs, h, r => ⟨rfl, by show Rep cs (h ++ []); rwa [List.append_nil], rfl⟩
  | .val t, cs, h, r => ⟨rfl, by show Rep cs (h ++ []); rwa [List.append_nil], rfl⟩
  | .leaf t, cs, h, r => ⟨rfl, by show Rep cs (h ++ []); rwa [List.append_nil], rfl⟩
theorem loop_spec (render : Nat → Option Text) (get : String → Option Val) (reparse : Option (List REl → List REl)) :
    ∀ (es : List REl) (cs : AMap CVal) (h : List Occ), Rep cs h →
      (replaceLoop render get reparse cs es).els = fillIn render get reparse h es ∧
      Rep (replaceLoop render get reparse cs es).counters (h ++ occsIn es) ∧
      (replaceLoop render get reparse cs es).replaced = es.any (setRef get)
  | [], cs, h, r => ⟨rfl, by show Rep cs (h ++ []); rwa [List.append_nil], rfl⟩
  | e :: es, cs, h, r => by
    obtain ⟨h1, h2, h3⟩ := one_spec render get reparse e cs h r
    obtain ⟨k1, k2, k3⟩ := loop_spec render get reparse es (replaceOne render get reparse cs e).2.1 (h ++ occs e) h2
    refine ⟨?_, ?_, ?_⟩
    · show (replaceOne render get reparse cs e).1 :: (replaceLoop render get reparse (replaceOne render get reparse cs e).2.1 es).els = _
      rw [h1, k1]; rfl
    · show Rep (replaceLoop render get reparse (replaceOne render get reparse cs e).2.1 es).counters (h ++ (occs e ++ occsIn es))
      rw [← List.append_assoc]; exact k2
    · show ((replaceOne render get reparse cs e).2.2 || (replaceLoop render get reparse (replaceOne render get reparse cs e).2.1 es).replaced) = _
      rw [h3, k3]; rfl
end

/-- C23, C24, for one content: references and counters are filled in as specified, and nothing else changes. -/
theorem content_filled (render : Nat → Option Text) (get : String → Option Val) (reparse : Option (List REl → List REl)) (es : List REl)
    (cs : AMap CVal) (h : List Occ) (r : Rep cs h) :
    (replaceRefs render get reparse cs es).1 = filled render get reparse h es ∧
    Rep (replaceRefs render get reparse cs es).2 (h ++ occsIn es) := by
  obtain ⟨h1, h2, h3⟩ := loop_spec render get reparse es cs h r
  refine ⟨?_, h2⟩
  show finish reparse (replaceLoop render get reparse cs es).replaced (replaceLoop render get reparse cs es).els = _
  rw [h1, h3]
  cases reparse <;> rfl

/-! ### Documents -/

/-- The text of a piece of the value of a declaration, if it has one: references to attributes that are not set stand for
themselves, references to empty attributes for nothing. -/
def pieceText (render : Nat → Option Text) (get : String → Option Val) : Piece → Option Text
  | .text t => some t
  | .ref name => match get name with
    | none => some ("{".toList ++ name.toList ++ "}".toList)
    | some (.str t) => some t
    | some (.other 0) => some []
    | some (.other (i + 1)) => render (i + 1)
    | _ => none
  | .other _ => none

/-- The value an attribute gets by a declaration: the concatenation of the pieces (empty: no value); or a formatted value. -/
def declared (code : List Merge.MEl → Nat) (render : Nat → Option Text) (get : String → Option Val) (ps : List Piece) : Val :=
  if ps.all (fun p => (pieceText render get p).isSome) then
    let t := (ps.map (fun p => (pieceText render get p).getD [])).flatten
    if t = [] then .other 0 else .str t
  else valOf code (slicedValue render get ps)

/-- The value of an attribute: the one given through the API, or else the one the document gave it last (C06). -/
def lookup (api : AMap Val) (ops : List C06.Op) (k : String) : Option Val :=
  match AMap.get api k with
  | some v => some v
  | none => C06.docValue k ops

/-- What the elements of a document do to the attributes, after `ops`: the value of a declaration is determined where it occurs. -/
def opsOf (code : List Merge.MEl → Nat) (render : Nat → Option Text) (api : AMap Val) (ops : List C06.Op) : List DEl → List C06.Op
  | [] => ops
  | .declare n ps :: es => opsOf code render api (ops ++ [.declare n (declared code render (lookup api ops) ps)]) es
  | .reset n :: es => opsOf code render api (ops ++ [.reset n]) es
  | .content _ :: es => opsOf code render api ops es

/-- The occurrences of counters in (the contents of) a document. -/
def docOccs : List DEl → List Occ
  | [] => []
  | .content es :: ds => occsIn es ++ docOccs ds
  | _ :: ds => docOccs ds

theorem piece_spec (render : Nat → Option Text) (get : String → Option Val) (p : Piece) (t : Text) (h : pieceText render get p = some t) :
    pieceValue render get p = .raw t ∨ (pieceValue render get p = .nil ∧ t = []) := by
  cases p with
  | text u => cases h; exact Or.inl rfl
  | other n => cases h
  | ref name =>
    revert h
    show pieceText render get (.ref name) = some t → _
    unfold pieceText pieceValue valueForRef
    dsimp only
    cases get name with
    | none => intro h; cases h; exact Or.inl rfl
    | some v =>
      cases v with
      | str u => intro h; cases h; exact Or.inl rfl
      | int i => intro h; cases h
      | flt i => intro h; cases h
      | other i =>
        cases i with
        | zero => intro h; cases h; exact Or.inr ⟨rfl, rfl⟩
        | succ i =>
          dsimp only
          cases render (i + 1) with
          | none => intro h; cases h
          | some u => intro h; cases h; exact Or.inl rfl

theorem loop_texts (render : Nat → Option Text) (get : String → Option Val) : ∀ (ps : List Piece) (buf : Text),
    (∀ p ∈ ps, (pieceText render get p).isSome = true) →
    Merge.loop [] buf (ps.map (pieceValue render get)) = Merge.flush (buf ++ (ps.map (fun p => (pieceText render get p).getD [])).flatten)
  | [], buf, _ => by rw [List.map_nil, Merge.loop]; simp
  | p :: ps, buf, h => by
    obtain ⟨t, ht⟩ := Option.isSome_iff_exists.1 (h p (by simp))
    have ih := fun b => loop_texts render get ps b (fun x hx => h x (by simp [hx]))
    rcases piece_spec render get p t ht with e | ⟨e, rfl⟩
    · rw [List.map_cons, e, Merge.loop, ih]
      simp [ht]
    · rw [List.map_cons, e, Merge.loop, ih]
      simp [ht]

theorem declared_spec (code : List Merge.MEl → Nat) (render : Nat → Option Text) (get : String → Option Val) (ps : List Piece) :
    valOf code (slicedValue render get ps) = declared code render get ps := by
  unfold declared
  by_cases h : ps.all (fun p => (pieceText render get p).isSome) = true
  · rw [if_pos h]
    unfold slicedValue Merge.reduce Merge.merge
    rw [loop_texts render get ps [] (fun p hp => List.all_eq_true.1 h p hp), List.nil_append]
    unfold Merge.flush
    by_cases ht : (ps.map (fun p => (pieceText render get p).getD [])).flatten = []
    · rw [if_pos ht, if_pos ht]; rfl
    · rw [if_neg ht, if_neg ht]; rfl
  · rw [if_neg h]

theorem get_lookup (api : AMap Val) (ops : List C06.Op) (wf : ∀ o ∈ ops, o.WF) :
    (ops.foldl C06.Op.run (CtxAttrs.new api)).get = lookup api ops := by
  funext k
  rw [C06.get_after_history api ops wf k]; rfl

theorem doc_spec (code : List Merge.MEl → Nat) (render : Nat → Option Text) (reparse : Option (List REl → List REl)) (api : AMap Val)
    (es : List REl) (post : List DEl) : ∀ (pre : List DEl) (ops : List C06.Op) (h : List Occ) (st : SState),
      (∀ o ∈ ops, o.WF) → st.attrs = ops.foldl C06.Op.run (CtxAttrs.new api) → Rep st.counters h →
      (substDoc code render reparse st (pre ++ .content es :: post)).2[pre.length]? =
        some (filled render (lookup api (opsOf code render api ops pre)) reparse (h ++ docOccs pre) es)
  | [], ops, h, st, wf, ha, hr => by
    show some (replaceRefs render st.attrs.get reparse st.counters es).1 = some (filled render (lookup api ops) reparse (h ++ []) es)
    rw [(content_filled render st.attrs.get reparse es st.counters h hr).1, ha, get_lookup api ops wf, List.append_nil]
  | .declare n ps :: pre, ops, h, st, wf, ha, hr => by
    have hg : st.attrs.get = lookup api ops := by rw [ha, get_lookup api ops wf]
    have := doc_spec code render reparse api es post pre (ops ++ [.declare n (declared code render (lookup api ops) ps)]) h
      (substEl code render reparse st (.declare n ps)).1 (by
        intro o ho
        rcases List.mem_append.1 ho with ho | ho
        · exact wf o ho
        · rw [List.mem_singleton.1 ho]; trivial) (by
        rw [List.foldl_append, ← ha, ← hg, ← declared_spec]; rfl) hr
    exact this
  | .reset n :: pre, ops, h, st, wf, ha, hr => by
    have := doc_spec code render reparse api es post pre (ops ++ [.reset n]) h (substEl code render reparse st (.reset n)).1 (by
        intro o ho
        rcases List.mem_append.1 ho with ho | ho
        · exact wf o ho
        · rw [List.mem_singleton.1 ho]; trivial) (by
        rw [List.foldl_append, ← ha]; rfl) hr
    exact this
  | .content c :: pre, ops, h, st, wf, ha, hr => by
    have hc := content_filled render st.attrs.get reparse c st.counters h hr
    have := doc_spec code render reparse api es post pre ops (h ++ occsIn c) (substEl code render reparse st (.content c)).1 wf ha hc.2
    rw [List.append_assoc] at this
    exact this

/-- C23 and C24: the content at any position of a document is filled in with the values the attributes have there (the API values,
or else the last value the document gave before) and the values of the counters given by the occurrences before. -/
theorem substituted (code : List Merge.MEl → Nat) (render : Nat → Option Text) (reparse : Option (List REl → List REl)) (api : AMap Val)
    (pre post : List DEl) (es : List REl) :
    (substDoc code render reparse ⟨CtxAttrs.new api, []⟩ (pre ++ .content es :: post)).2[pre.length]? =
      some (filled render (lookup api (opsOf code render api [] pre)) reparse (docOccs pre) es) := by
  have := doc_spec code render reparse api es post pre [] [] ⟨CtxAttrs.new api, []⟩ (by simp) rfl (fun n => by rfl)
  rwa [List.nil_append] at this

/-! ### Consequences -/

/-- C23: a reference to an attribute that is not set remains in the text. -/
theorem unset_stays (render : Nat → Option Text) (name : String) : reference render name none = .str ("{" ++ name ++ "}").toList := by
  simp [reference, String.toList_append]

/-- C23: text and other elements are not changed. -/
theorem others_unchanged (render : Nat → Option Text) (get : String → Option Val) (reparse : Option (List REl → List REl)) (h : List Occ) :
    ∀ es : List REl, (∀ e ∈ es, (∃ t, e = .str t) ∨ (∃ n, e = .leaf n)) → filled render get reparse h es = es := by
  have key : ∀ (es : List REl) (h : List Occ), (∀ e ∈ es, (∃ t, e = .str t) ∨ (∃ n, e = .leaf n)) → fillIn render get reparse h es = es := by
    intro es
    induction es with
    | nil => intro h _; rfl
    | cons e es ih =>
      intro h hes
      show fill render get reparse h e :: fillIn render get reparse (h ++ occs e) es = e :: es
      rw [ih _ (fun x hx => hes x (by simp [hx]))]
      rcases hes e (by simp) with ⟨t, rfl⟩ | ⟨n, rfl⟩ <;> rfl
  intro es hes
  unfold filled
  have hk := key es h hes
  have hn : es.any (setRef get) = false := by
    rw [List.any_eq_false]
    intro e he
    rcases hes e he with ⟨t, rfl⟩ | ⟨n, rfl⟩ <;> simp [setRef]
  cases reparse with
  | none => exact hk
  | some f => dsimp only; rw [hn]; exact hk

/-- C23: an attribute given through the API has its value everywhere. -/
theorem api_everywhere (api : AMap Val) (ops : List C06.Op) (k : String) (v : Val) (h : AMap.get api k = some v) : lookup api ops k = some v := by
  unfold lookup; rw [h]

/-- C23: after a declaration of text, and no other operation on the attribute, its value is that text. -/
theorem declared_value (api : AMap Val) (pre post : List C06.Op) (k : String) (v : Val) (h : AMap.get api k = none)
    (hp : post.any (fun o => (o.on k).isSome) = false) : lookup api (pre ++ .declare k v :: post) k = some v := by
  unfold lookup
  rw [h]
  show C06.docValue k (pre ++ .declare k v :: post) = some v
  induction pre with
  | nil =>
    show (if post.any (fun o => (o.on k).isSome) then C06.docValue k post else ((C06.Op.declare k v).on k).getD none) = _
    rw [hp]
    simp [C06.Op.on]
  | cons o pre ih =>
    show (if (pre ++ .declare k v :: post).any (fun o => (o.on k).isSome) then C06.docValue k (pre ++ .declare k v :: post) else _) = _
    have : (pre ++ C06.Op.declare k v :: post).any (fun o => (o.on k).isSome) = true := by
      rw [List.any_append, List.any_cons]
      simp [C06.Op.on]
    rw [if_pos this]; exact ih

/-! ### Examples and findings -/

/-- `:a: 1`, text `{a} {b}`, `:a: 2`, `:b: {a}!`, text `{a} {b} {counter:x} {counter2:x}`, `:a: 3`, text `{b} {counter:x}`. -/
def exampleDoc : List DEl :=
  [.declare "a" [.text ['1']], .content [.ref "a", .str [' '], .ref "b"],
   .declare "a" [.text ['2']], .declare "b" [.ref "a", .text ['!']],
   .content [.ref "a", .ref "b", .counter "x" none false, .parent 7 [.counter "x" none true]],
   .declare "a" [.text ['3']], .content [.ref "b", .counter "x" none false, .counter "y" (some (.rune 97)) false, .counter "y" none false]]

example : (substDoc (fun _ => 0) (fun _ => none) none ⟨CtxAttrs.new [], []⟩ exampleDoc).2[1]? =
    some [.str ['1'], .str [' '], .str ['{', 'b', '}']] :=
  (substituted (fun _ => 0) (fun _ => none) none [] (exampleDoc.take 1) (exampleDoc.drop 2) _).trans rfl

example : (substDoc (fun _ => 0) (fun _ => none) none ⟨CtxAttrs.new [], []⟩ exampleDoc).2[4]? =
    some [.str ['2'], .str ['2', '!'], .str ['1'], .parent 7 [.str []]] :=
  (substituted (fun _ => 0) (fun _ => none) none [] (exampleDoc.take 4) (exampleDoc.drop 5) _).trans rfl

example : (substDoc (fun _ => 0) (fun _ => none) none ⟨CtxAttrs.new [("a", .str ['9'])], []⟩ exampleDoc).2[4]? =
    some [.str ['9'], .str ['9', '!'], .str ['1'], .parent 7 [.str []]] :=
  (substituted (fun _ => 0) (fun _ => none) none [("a", .str ['9'])] (exampleDoc.take 4) (exampleDoc.drop 5) _).trans rfl

example : (substDoc (fun _ => 0) (fun _ => none) none ⟨CtxAttrs.new [], []⟩ exampleDoc).2[6]? =
    some [.str ['2', '!'], .str ['3'], .str ['a'], .str ['b']] :=
  (substituted (fun _ => 0) (fun _ => none) none [] (exampleDoc.take 6) (exampleDoc.drop 7) _).trans rfl

/-- Finding: an attribute without a value (`:foo:`) can be referred to, but the reference is replaced with a nil value, which the
renderer rejects: the conversion fails. Likewise for values given through the API, or in the front matter, that are not strings. -/
theorem finding_empty_attribute (code : List Merge.MEl → Nat) (render : Nat → Option Text) :
    (∃ es, (substDoc code render none ⟨CtxAttrs.new [], []⟩ [.declare "foo" [], .content [.ref "foo"]]).2[1]? = some es ∧
      ¬ ∀ e ∈ es, renderable e = true) ∧
    (∃ es, (substDoc code render none ⟨CtxAttrs.new [("foo", .int 1)], []⟩ [.content [.ref "foo"]]).2[0]? = some es ∧
      ¬ ∀ e ∈ es, renderable e = true) := by
  refine ⟨⟨[.val (.other 0)], (substituted code render none [] [.declare "foo" []] [] [.ref "foo"]).trans rfl, ?_⟩,
    ⟨[.val (.int 1)], (substituted code render none [("foo", .int 1)] [] [] [.ref "foo"]).trans rfl, ?_⟩⟩
  · intro h; have := h _ (List.mem_singleton.2 rfl); cases this
  · intro h; have := h _ (List.mem_singleton.2 rfl); cases this

/-- C23: content is accepted by the renderer if the attributes it refers to are unset, or strings. -/
theorem renderable_strings (render : Nat → Option Text) (get : String → Option Val) (h : List Occ) (es : List REl)
    (hv : ∀ e ∈ es, ∀ v, e ≠ .val v) (hs : ∀ name v, .ref name ∈ es → get name = some v → ∃ t, v = .str t) :
    ∀ e ∈ filled render get none h es, renderable e = true := by
  show ∀ e ∈ fillIn render get none h es, _
  induction es generalizing h with
  | nil => intro e he; cases he
  | cons x es ih =>
    intro e he
    rcases List.mem_cons.1 he with he | he
    · subst he
      cases x with
      | ref name =>
        show renderable (reference render name (get name)) = true
        cases hg : get name with
        | none => rfl
        | some v =>
          obtain ⟨t, rfl⟩ := hs name v (by simp) hg
          rfl
      | counter n v hid => rfl
      | str t => rfl
      | val v => exact absurd rfl (hv (.val v) (by simp) v)
      | leaf n => rfl
      | parent n es => rfl
    · exact ih _ (fun y hy => hv y (by simp [hy])) (fun n v hn => hs n v (by simp [hn])) e he

end Verif.C23

namespace Verif.C24
open Verif.AttrRefs

/-- Finding: the start value of a hidden counter is ignored: `{counter2:x:5}{counter:x}` yields 2 instead of 6. -/
theorem finding_counter2_start (render : Nat → Option Text) (get : String → Option Val) :
    (replaceRefs render get none [] [parseCounter "x" true (some (.int 5)), parseCounter "x" false none]).1 = [.str [], .str ['2']] := rfl

/-- Finding: a character counter does not stop at the end of the alphabet: `{counter:x:z}{counter:x}` yields `z{`. -/
theorem finding_past_z (render : Nat → Option Text) (get : String → Option Val) :
    (replaceRefs render get none [] [parseCounter "x" false (some (.rune 122)), parseCounter "x" false none]).1 = [.str ['z'], .str ['{']] := rfl

/-- C24: the text shown for the k-th `{counter:n}`, hidden or not the ones before, without start values: the number `k` in decimal
notation. -/
theorem kth_shown (n : String) (h : List Occ) (hs : ∀ o ∈ h, o.name = n → o.start = none) :
    shown h ⟨n, none, false⟩ = Nat.toDigits 10 ((h.filter (fun o => o.name = n)).length + 1) := by
  unfold shown
  rw [if_neg (by simp)]
  dsimp only
  rw [counts n (h ++ [Occ.mk n none false]) (by
    intro o ho hn
    rcases List.mem_append.1 ho with ho | ho
    · exact hs o ho hn
    · rw [List.mem_singleton.1 ho])]
  simp [CVal.text, itoa]

/-- C24: a start letter is shown as such, and `j` occurrences later the j-th letter after it. -/
theorem letter_shown (n : String) (h h' : List Occ) (c : Char) (hid : Bool) (d : Char) (hs : ∀ o ∈ h', o.name = n → o.start = none)
    (hd : d.toNat = c.toNat + (h'.filter (fun o => o.name = n)).length + 1) :
    shown (h ++ ⟨n, some (.rune c.toNat), hid⟩ :: h') ⟨n, none, false⟩ = [d] := by
  unfold shown
  rw [if_neg (by simp)]
  have e : (h ++ ⟨n, some (.rune c.toNat), hid⟩ :: h') ++ [⟨n, none, false⟩] = h ++ ⟨n, some (.rune c.toNat), hid⟩ :: (h' ++ [⟨n, none, false⟩]) := by simp
  rw [e]
  dsimp only
  rw [counts_from n h (h' ++ [Occ.mk n none false]) _ hid (by
    intro o ho hn
    rcases List.mem_append.1 ho with ho | ho
    · exact hs o ho hn
    · rw [List.mem_singleton.1 ho])]
  have hl : ((h' ++ [(⟨n, none, false⟩ : Occ)]).filter (fun o => o.name = n)).length = (h'.filter (fun o => o.name = n)).length + 1 := by simp
  rw [hl]
  show runeText (c.toNat + ((h'.filter (fun o => o.name = n)).length + 1)) = [d]
  rw [← Nat.add_assoc, ← hd]
  unfold runeText
  rw [if_pos (show d.toNat.isValidChar from d.valid)]
  congr 1
  exact Char.ofNat_toNat d

example : value "x" [⟨"x", none, false⟩, ⟨"y", some (.rune 97), false⟩, ⟨"x", none, true⟩, ⟨"y", none, false⟩] = .int 2 := by decide
example : value "y" [⟨"x", none, false⟩, ⟨"y", some (.rune 97), false⟩, ⟨"x", none, true⟩, ⟨"y", none, false⟩] = .rune 98 := by decide

end Verif.C24
