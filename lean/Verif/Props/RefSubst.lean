import Verif.Props.RefMerge
import Verif.Props.Prose

/-!
# C67 — references in a paragraph are replaced
-/
namespace Verif
namespace C67
open Peg Grammar Actions Referenced
open PlainText (Plain isSpecial pieces)
open Walk (Any World)
open Subs (Sub)
open Paragraphs (Line)

/-- What the context of the substitutions knows. -/
structure Knows (c : Walk.Ctx) (s : State) : Prop where
  api : ∀ n, AMap.get c.api n = (s.given n).map Any.text
  doc : ∀ n, AMap.get c.doc n = (s.declared n).map Any.text
  counts : ∀ n, (AMap.get c.counters n).getD (.int 0) = .int (s.counts n)

theorem Knows.get {c : Walk.Ctx} {s : State} (h : Knows c s) (n : String) : c.get n = (s.value n).map Any.text := by
  unfold Walk.Ctx.get State.value
  rw [h.api n, h.doc n]
  cases s.given n <;> rfl

/-- The elements are text without special characters, or special characters. -/
def Kind (e : Any) : Prop := (∃ x, e = .str x ∧ ∀ c ∈ x, isSpecial c = false) ∨ ∃ c, isSpecial c = true ∧ e = .special [c]

/-- The elements show a text. -/
structure Shown (es : List Any) (t : Text) : Prop where
  kinds : ∀ e ∈ es, Kind e
  text : es.flatMap C58.textOf = t

theorem Kind.textual {e : Any} (h : Kind e) : C59.Textual e := by
  rcases h with ⟨x, rfl, _⟩ | ⟨c, _, rfl⟩
  · exact .inl ⟨_, rfl⟩
  · exact .inr ⟨_, rfl⟩

theorem shown_pieces (t : Text) : Shown (pieces true t) t := ⟨C60.pieces_kinds t, C58.pieces_text_of true t⟩

/-- The result of the replacement. -/
structure Ran (W : World) (get : String → Option Any) (p : Option (List Sub)) (cs : AMap AttrRefs.CVal) (es : List Any) (t : Text) (cs' : AMap AttrRefs.CVal)
    (r : Bool) (els : List Any) : Prop where
  runs : Walk.replaceLoop W get p cs es = .ok ⟨els, cs', r⟩
  textual : ∀ e ∈ els, C59.Textual e
  kinds : r = false → ∀ e ∈ els, Kind e
  text : els.flatMap C58.textOf = t

variable {W : World} {get : String → Option Any} {p : Option (List Sub)} {cs cs' : AMap AttrRefs.CVal} {es els : List Any} {t : Text} {r : Bool}

theorem ran_cons {e : Any} (he : Kind e) (h : Ran W get p cs es t cs' r els) : Ran W get p cs (e :: es) (C58.textOf e ++ t) cs' r (e :: els) := by
  refine ⟨?_, ?_, ?_, ?_⟩
  · have := h.runs
    rcases he with ⟨x, rfl, _⟩ | ⟨c, _, rfl⟩ <;> simp [Walk.replaceLoop, Walk.replaceOne, this]
  · intro x hx
    rcases List.mem_cons.mp hx with rfl | hx
    · exact he.textual
    · exact h.textual x hx
  · intro hr x hx
    rcases List.mem_cons.mp hx with rfl | hx
    · exact he
    · exact h.kinds hr x hx
  · rw [List.flatMap_cons, h.text]

theorem ran_consBuf {w : Text} (hw : ∀ c ∈ w, isSpecial c = false) (h : Ran W get p cs es t cs' r els) :
    ∃ els', Ran W get p cs (consBuf w es) (w ++ t) cs' r els' := by
  have put : ∃ els', Ran W get p cs (Walk.flush w ++ es) (w ++ t) cs' r els' := by
    unfold Walk.flush
    by_cases h0 : w = []
    · rw [if_pos h0, h0]; exact ⟨els, h⟩
    · rw [if_neg h0]
      exact ⟨_, ran_cons (.inl ⟨w, rfl, hw⟩) h⟩
  cases es with
  | nil => rw [List.append_nil] at put; exact put
  | cons e es =>
    by_cases he : ∃ u, e = .str u
    · obtain ⟨u, rfl⟩ := he
      have hr := h.runs
      simp only [Walk.replaceLoop, Walk.replaceOne] at hr
      cases hq : Walk.replaceLoop W get p cs es with
      | error b => rw [hq] at hr; cases hr
      | ok q =>
        rw [hq] at hr
        obtain ⟨qe, qc, qr⟩ := q
        have hr := Except.ok.inj hr
        simp only [Walk.Looped.mk.injEq, Bool.false_or] at hr
        obtain ⟨rfl, rfl, rfl⟩ := hr
        refine ⟨.str (w ++ u) :: qe, ?_, ?_, ?_, ?_⟩
        · show Walk.replaceLoop W get p cs (.str (w ++ u) :: es) = _
          simp [Walk.replaceLoop, Walk.replaceOne, hq]
        · intro x hx
          rcases List.mem_cons.mp hx with rfl | hx
          · exact .inl ⟨_, rfl⟩
          · exact h.textual x (List.mem_cons_of_mem _ hx)
        · intro hf x hx
          rcases List.mem_cons.mp hx with rfl | hx
          · refine .inl ⟨_, rfl, fun c hc => ?_⟩
            rcases List.mem_append.mp hc with hc | hc
            · exact hw c hc
            · rcases h.kinds hf (.str u) List.mem_cons_self with ⟨y, e, hy⟩ | ⟨_, _, e⟩
              · cases e; exact hy c hc
              · cases e
          · exact h.kinds hf x (List.mem_cons_of_mem _ hx)
        · rw [← h.text]
          show (w ++ u) ++ _ = w ++ (u ++ _)
          rw [List.append_assoc]
    · have e1 : consBuf w (e :: es) = Walk.flush w ++ e :: es := (flush_cons (fun u hu => he ⟨u, hu⟩) w es).symm
      rw [e1]
      exact put

/-- Whether something is replaced. -/
def replaces (s : State) (ts : List Tok) : Bool := ts.any (fun t => match t with
  | .ref n => (s.value n).isSome
  | _ => false)

theorem next_value (s : State) (x : Tok) : (x.next s).value = s.value := by cases x <;> rfl

theorem nameChar {al : Char → Bool} (hal : ∀ c, al c = true → isSpecial c = false) {n : String} (h : Name al n) : ∀ c ∈ n.toList, isSpecial c = false := by
  obtain ⟨x, xs, e, hx, hxs⟩ := h
  intro c hc
  rw [e] at hc
  rcases List.mem_cons.mp hc with rfl | hc
  · rcases hx with hx | rfl
    · exact hal _ hx
    · rfl
  · rcases hxs c hc with h | rfl
    · exact hal _ h
    · rfl

theorem braced {al : Char → Bool} (hal : ∀ c, al c = true → isSpecial c = false) {n : String} (h : Name al n) :
    ∀ c ∈ "{".toList ++ n.toList ++ "}".toList, isSpecial c = false := by
  intro c hc
  rcases List.mem_append.mp hc with hc | hc
  · rcases List.mem_append.mp hc with hc | hc
    · rw [List.mem_singleton.mp hc]; rfl
    · exact nameChar hal h c hc
  · rw [List.mem_singleton.mp hc]; rfl

theorem itoa_special (n : Nat) : ∀ c ∈ itoa n, isSpecial c = false := by
  intro c hc
  have hd : c.isDigit = true := Nat.isDigit_of_mem_toDigits (b := 10) (by decide) (by decide) hc
  cases h : isSpecial c with
  | false => rfl
  | true =>
    simp only [isSpecial, Bool.or_eq_true, beq_iff_eq] at h
    rcases h with (rfl | rfl) | rfl <;> exact absurd hd (by decide)

theorem ran_elems {al : Char → Bool} (hal : ∀ c, al c = true → isSpecial c = false) : ∀ (ts : List Tok), (∀ x ∈ ts, x.Ok al) → ∀ (s : State) (cs : AMap AttrRefs.CVal),
    (∀ n, get n = (s.value n).map Any.text) → (∀ n, (AMap.get cs n).getD (.int 0) = .int (s.counts n)) →
    ∃ cs' els, Ran W get p cs (elems ts) (shown s ts) cs' (replaces s ts) els ∧ ∀ n, (AMap.get cs' n).getD (.int 0) = .int ((next s ts).counts n)
  | [], _, s, cs, _, hc => ⟨cs, [], ⟨rfl, fun _ h => (nomatch h), fun _ _ h => (nomatch h), rfl⟩, hc⟩
  | x :: ts, hx, s, cs, hg, hc => by
    have hok := hx x List.mem_cons_self
    have ih := fun cs hc => ran_elems hal ts (fun y hy => hx y (List.mem_cons_of_mem _ hy)) (x.next s) cs (fun n => by rw [next_value]; exact hg n) hc
    have hrep : replaces (x.next s) ts = replaces s ts := by unfold replaces; rw [next_value]
    rw [hrep] at ih
    cases x with
    | char c =>
      obtain ⟨cs', els, h, hn⟩ := ih cs hc
      show ∃ cs' els, Ran W get p cs (consV (if isSpecial c = true then _ else _) (elems ts)) ([c] ++ shown s ts) cs' (replaces s ts) els ∧ _
      by_cases hs : isSpecial c = true
      · rw [if_pos hs]
        exact ⟨cs', _, ran_cons (.inr ⟨c, hs, rfl⟩) h, hn⟩
      · rw [if_neg hs]
        obtain ⟨els', h'⟩ := ran_consBuf (w := [c]) (fun d hd => by rw [List.mem_singleton.mp hd]; simpa using hs) h
        exact ⟨cs', els', h', hn⟩
    | kept n =>
      obtain ⟨cs', els, h, hn⟩ := ih cs hc
      obtain ⟨els', h'⟩ := ran_consBuf (braced hal hok) h
      exact ⟨cs', els', h', hn⟩
    | ref n =>
      obtain ⟨cs', els, h, hn⟩ := ih cs hc
      have h : Ran W get p cs (elems ts) (shown s ts) cs' (replaces s ts) els := h
      cases hv : s.value n with
      | none =>
        refine ⟨cs', .str ("{".toList ++ n.toList ++ "}".toList) :: els, ⟨?_, ?_, ?_, ?_⟩, hn⟩
        · show Walk.replaceLoop W get p cs (.ref n :: elems ts) = _
          have hr : replaces s (.ref n :: ts) = replaces s ts := by simp [replaces, hv]
          rw [hr]
          simp [Walk.replaceLoop, Walk.replaceOne, Walk.valueForRef, hg n, hv, h.runs, Walk.elementFor]
        · intro y hy
          rcases List.mem_cons.mp hy with rfl | hy
          · exact .inl ⟨_, rfl⟩
          · exact h.textual y hy
        · intro hf y hy
          rcases List.mem_cons.mp hy with rfl | hy
          · exact .inl ⟨_, rfl, braced hal hok.1⟩
          · exact h.kinds (by simpa [replaces, hv] using hf) y hy
        · rw [List.flatMap_cons, h.text]
          show _ = Tok.shown s (.ref n) ++ shown s ts
          simp only [Tok.shown, hv]; rfl
      | some v =>
        refine ⟨cs', .str v :: els, ⟨?_, ?_, ?_, ?_⟩, hn⟩
        · show Walk.replaceLoop W get p cs (.ref n :: elems ts) = _
          have hr : replaces s (.ref n :: ts) = true := by simp [replaces, hv]
          rw [hr]
          simp [Walk.replaceLoop, Walk.replaceOne, Walk.valueForRef, hg n, hv, h.runs, Walk.elementFor]
        · intro y hy
          rcases List.mem_cons.mp hy with rfl | hy
          · exact .inl ⟨_, rfl⟩
          · exact h.textual y hy
        · intro hf
          simp [replaces, hv] at hf
        · rw [List.flatMap_cons, h.text]
          show _ = Tok.shown s (.ref n) ++ shown s ts
          simp only [Tok.shown, hv]; rfl
    | count n =>
      have hc' : ∀ k, (AMap.get (AMap.set cs n (.int (s.counts n + 1))) k).getD (.int 0) = .int ((s.counted n).counts k) := by
        intro k
        rw [AMap.get_set]
        show _ = AttrRefs.CVal.int (if k = n then _ else _)
        by_cases hk : k = n
        · subst hk; simp
        · simp [hk, Ne.symm hk, hc k]
      obtain ⟨cs', els, h, hn⟩ := ih _ hc'
      refine ⟨cs', .str (itoa (s.counts n + 1)) :: els, ⟨?_, ?_, ?_, ?_⟩, hn⟩
      · show Walk.replaceLoop W get p cs (.counter n none false :: elems ts) = _
        have hr : replaces s (.count n :: ts) = replaces s ts := by simp [replaces]
        rw [hr]
        have := h.runs
        simp [Walk.replaceLoop, Walk.replaceOne, AttrRefs.valueForCounter, hc n, AttrRefs.CVal.succ, AttrRefs.CVal.text, this]
      · intro y hy
        rcases List.mem_cons.mp hy with rfl | hy
        · exact .inl ⟨_, rfl⟩
        · exact h.textual y hy
      · intro hf y hy
        rcases List.mem_cons.mp hy with rfl | hy
        · exact .inl ⟨_, rfl, itoa_special _⟩
        · exact h.kinds (by simpa [replaces] using hf) y hy
      · rw [List.flatMap_cons, h.text]; rfl
    | step n =>
      have hc' : ∀ k, (AMap.get (AMap.set cs n (.int (s.counts n + 1))) k).getD (.int 0) = .int ((s.counted n).counts k) := by
        intro k
        rw [AMap.get_set]
        show _ = AttrRefs.CVal.int (if k = n then _ else _)
        by_cases hk : k = n
        · subst hk; simp
        · simp [hk, Ne.symm hk, hc k]
      obtain ⟨cs', els, h, hn⟩ := ih _ hc'
      refine ⟨cs', .str [] :: els, ⟨?_, ?_, ?_, ?_⟩, hn⟩
      · show Walk.replaceLoop W get p cs (.counter n none true :: elems ts) = _
        have hr : replaces s (.step n :: ts) = replaces s ts := by simp [replaces]
        rw [hr]
        have := h.runs
        simp [Walk.replaceLoop, Walk.replaceOne, AttrRefs.valueForCounter, hc n, AttrRefs.CVal.succ, this]
      · intro y hy
        rcases List.mem_cons.mp hy with rfl | hy
        · exact .inl ⟨_, rfl⟩
        · exact h.textual y hy
      · intro hf y hy
        rcases List.mem_cons.mp hy with rfl | hy
        · exact .inl ⟨_, rfl, fun _ h => nomatch h⟩
        · exact h.kinds (by simpa [replaces] using hf) y hy
      · rw [List.flatMap_cons, h.text]; rfl

/-! ### Paragraphs -/

/-- The inline content is parsed with the rule `NormalGroup`, with the substitutions that are set; and the classes of letters and numbers. -/
def Grammatical (letter number : Char → Bool) (W : World) : Prop :=
  ∀ (c : Walk.Settings) (t : Text), c.entry = .normalGroup → t ≠ [] → ∃ (σ : Type) (S : Sem σ) (A : Peg.Code σ) (s : σ),
    C45.ChecksProgress S ∧ Obeys A ∧ Enabled S c.subs ∧ S.letter = letter ∧ S.number = number ∧
    ∀ n s' es u, runV grammar S A n (.rule R.NormalGroup) t s t = some (.ok s' [.slice es] u) → W.parse c t = some es

/-- The classes on ASCII. -/
def AsciiClasses (letter number : Char → Bool) : Prop := ∀ c, c.toNat < 128 → letter c = c.isAlpha ∧ number c = c.isDigit

variable {letter number : Char → Bool}

theorem Grammatical.plain (hC : AsciiClasses letter number) (h : Grammatical letter number W) : C59.Grammatical W := by
  intro c t hc hne
  obtain ⟨σ, S, A, s, h1, h2, h3, rfl, rfl, h6⟩ := h c t hc hne
  exact ⟨σ, S, A, s, h1, h2, h3, Ascii.classes (S := S) hC, h6⟩

theorem parse_refs (hC : AsciiClasses letter number) (hW : Grammatical letter number W) {c : Walk.Settings} {ts : List Tok} (hc : c.entry = .normalGroup)
    (hs : c.subs = Subs.normal) (hne : ts ≠ []) (hx : ∀ y ∈ ts, y.Ok (fun d => letter d || number d)) (ht : Plain others (written ts)) :
    W.parse c (written ts) = some (elems ts) := by
  have hne' : written ts ≠ [] := by
    obtain ⟨x, ts, rfl⟩ := List.exists_cons_of_ne_nil hne
    obtain ⟨d, u, e⟩ := written_ne x ts
    rw [e]; exact List.cons_ne_nil _ _
  obtain ⟨σ, S, A, s, hS, hA, hE, rfl, rfl, h⟩ := hW c _ hc hne'
  rw [hs] at hE
  obtain ⟨n, s', hr⟩ := C47.inline_accepted S hS s _ hne' R.NormalGroup (.inl rfl)
  obtain ⟨r, ⟨n, hr⟩, _⟩ := evalV_of_eval grammar S A (show Eval grammar S (.rule R.NormalGroup) (written ts) s (written ts) (.ok s' []) from ⟨n, hr⟩)
  obtain ⟨s1, rfl⟩ := parsed hS hA hE hC hne hx ht hr
  exact h n s1 _ _ hr

/-- The text of a paragraph. -/
theorem body_lines : ∀ ls : List TLine, C59.body (ls.map TLine.line) = written (body ls)
  | [] => rfl
  | [_] => rfl
  | l :: l' :: ls => by
    have ih := body_lines (l' :: ls)
    show (TLine.line l).text ++ '\n' :: C59.body ((l' :: ls).map TLine.line) = written (l.toks ++ .char '\n' :: body (l' :: ls))
    rw [ih, written_append]; rfl

theorem flat_text : ∀ {es : List Any}, (∀ e ∈ es, C59.Textual e) → ∀ n, Walk.serializeLoop n es = (es.flatMap C58.textOf, [])
  | [], _, _ => rfl
  | e :: es, h, n => by
    have ih := flat_text (es := es) (fun x hx => h x (List.mem_cons_of_mem _ hx)) n
    rcases h e List.mem_cons_self with ⟨t, rfl⟩ | ⟨t, rfl⟩ <;> simp only [Walk.serializeLoop, Walk.textOf, ih] <;> rfl

theorem restored {ts : List Tok} (store : List (Text × Any)) : Walk.restore store (elems ts) = elems ts := by
  have h : ∀ v ∈ elems ts, Flat v := flat_norm (fun v hv => by
    obtain ⟨x, _, rfl⟩ := List.mem_map.mp hv
    exact (stands_value x).1)
  revert h
  generalize elems ts = es
  intro h
  induction es with
  | nil => rfl
  | cons e es ih =>
    show Walk.restoreOne store e :: Walk.restore store es = _
    rw [ih (fun x hx => h x (List.mem_cons_of_mem _ hx))]
    cases h e List.mem_cons_self <;> rfl

theorem alnum_special (hC : AsciiClasses letter number) (c : Char) (h : (letter c || number c) = true) : isSpecial c = false :=
  by
  have key : ∀ d : Char, d.toNat < 128 → (d.isAlpha || d.isDigit) = false → c ≠ d := by
    rintro d hd h0 rfl
    rw [(hC c hd).1, (hC c hd).2, h0] at h; cases h
  simp [isSpecial, key '<' (by decide) (by decide), key '>' (by decide) (by decide), key '&' (by decide) (by decide)]

/-- A paragraph shows what its text stands for, and the context knows what was counted. -/
theorem substituted (hC : AsciiClasses letter number) (hW : Grammatical letter number W) {c : Walk.Ctx} {s : State} (hK : Knows c s) {l : TLine} {ls : List TLine}
    (hok : l.line.Ok) (hx : ∀ y ∈ body (l :: ls), y.Ok (fun d => letter d || number d)) (ht : Plain others (written (body (l :: ls))))
    (hf : Plain later (shown s (body (l :: ls)))) :
    ∃ es c', Walk.substParagraph W c [] [] (Paragraphs.kept ((l :: ls).map TLine.line)) = .ok (.paragraph [] es, c') ∧
      Shown es (shown s (body (l :: ls))) ∧ Knows c' (next s (body (l :: ls))) ∧ c'.opts = c.opts := by
  have hbody := body_lines (l :: ls)
  have hbne : written (body (l :: ls)) ≠ [] := by rw [← hbody]; exact C59.body_ne hok
  generalize hb : body (l :: ls) = ts at *
  have htne : ts ≠ [] := by rintro rfl; exact hbne rfl
  have hne : (Paragraphs.kept ((l :: ls).map TLine.line)).isEmpty = false := by cases ls <;> rfl
  have hset := C59.settle_last (c.opts ++ []) Subs.normal
  have hparse := parse_refs hC hW hset.1 hset.2 htne hx ht
  have hwith : Walk.parseWith W (.slice (Paragraphs.kept ((l :: ls).map TLine.line))) Subs.normal (c.opts ++ ([] ++ [.entry .normalGroup])) = .ok (elems ts) := by
    unfold Walk.parseWith
    simp only [Walk.serialize, C59.serialize_kept]
    rw [hbody, if_neg hbne, ← List.append_assoc c.opts, hparse]
    exact congrArg Except.ok (restored [])
  obtain ⟨cs', els, hran, hcount⟩ := ran_elems (W := W) (get := c.get) (p := some later) (alnum_special hC) ts hx s c.counters hK.get hK.counts
  obtain ⟨es, hes, hshown⟩ : ∃ es, Walk.finish W (some later) (replaces s ts) els = .ok es ∧ Shown es (shown s ts) := by
    unfold Walk.finish
    cases hr : replaces s ts with
    | false => exact ⟨els, rfl, hran.kinds hr, hran.text⟩
    | true =>
      dsimp only
      rw [if_pos rfl]
      unfold Walk.parseWith
      simp only [Walk.serialize]
      rw [flat_text hran.textual, hran.text]
      dsimp only
      by_cases h0 : shown s ts = []
      · rw [if_pos h0, h0]; exact ⟨[], rfl, ⟨fun _ h => (nomatch h), rfl⟩⟩
      · rw [if_neg h0]
        have hset := C59.settle_last [] later
        have := C59.parse_plain (hW.plain hC) hset.1 (hset.2.symm ▸ hf) h0
        rw [hset.2] at this
        have this : W.parse (Walk.settle ([.entry .normalGroup] ++ [.subs later])) (shown s ts) = some (pieces true (shown s ts)) := this
        rw [this]
        exact ⟨pieces true (shown s ts), congrArg Except.ok (C59.restore_textual (C59.pieces_textual true _) []), shown_pieces _⟩
  have hslice : Walk.substSlice W c Subs.normal ([] ++ [.entry .normalGroup]) (Paragraphs.kept ((l :: ls).map TLine.line)) = .ok (es, cs') := by
    unfold Walk.substSlice
    rw [hne, hwith]
    simp only [Bool.false_eq_true, if_false]
    rw [if_pos (by decide)]
    unfold Walk.replaceAndReparse
    have e : Subs.split Subs.normal = some later := rfl
    rw [e, hran.runs]
    dsimp only
    rw [hes]
  have hsubs : Walk.subsFor (Walk.paragraphOf (Walk.getTextD W [] "style")) [] = .ok Subs.normal := rfl
  refine ⟨es, { c with counters := cs' }, ?_, hshown, ⟨?_, ?_, hcount⟩, rfl⟩
  · unfold Walk.substParagraph
    have hattr : Walk.substAttrs W c [] [] = .ok [] := rfl
    rw [hattr]
    dsimp only
    rw [hsubs]
    dsimp only
    rw [hslice]
    dsimp only
    rw [C59.inline_textual (fun e he => (hshown.kinds e he).textual)]
  · have key : ∀ (ts : List Tok) (s : State), (next s ts).given = s.given := by
      intro ts
      induction ts with
      | nil => intro s; rfl
      | cons x ts ih => intro s; exact (ih _).trans (by cases x <;> rfl)
    rw [key]; exact hK.api
  · have key : ∀ (ts : List Tok) (s : State), (next s ts).declared = s.declared := by
      intro ts
      induction ts with
      | nil => intro s; rfl
      | cons x ts ih => intro s; exact (ih _).trans (by cases x <;> rfl)
    rw [key]; exact hK.doc

end C67
end Verif
