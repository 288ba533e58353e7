import Verif.Props.RefLoop
/-!
# C67 — Declarations and resets, in the stage that applies substitutions
-/
namespace Verif
namespace C67
open Referenced Actions
open Walk (Any)

variable {W : Walk.World} {get : String → Option Any}

/-- Values that are texts, and together `w`. -/
def Texts (l : List Any) (w : Text) : Prop := ∃ ws : List Text, l = ws.map Any.text ∧ ws.flatten = w

theorem consBuf_flush (a b : Text) : consBuf a (Walk.flush b) = Walk.flush (a ++ b) := by
  unfold Walk.flush
  by_cases hb : b = []
  · rw [if_pos hb, hb, List.append_nil]
    rfl
  · rw [if_neg hb, if_neg (by simp [hb])]
    rfl

theorem norm_texts (ws : List Text) : norm (ws.map Any.text) = Walk.flush ws.flatten := by
  induction ws with
  | nil => rfl
  | cons w ws ih =>
    show consBuf w (norm (ws.map Any.text)) = _
    rw [ih, consBuf_flush]
    rfl

theorem reduce_texts {l : List Any} {w : Text} (h : Texts l w) (hw : w ≠ []) : Walk.reduce l = .text w := by
  obtain ⟨ws, rfl, rfl⟩ := h
  unfold Walk.reduce
  rw [merge_flat (fun v hv => by obtain ⟨x, _, rfl⟩ := List.mem_map.mp hv; exact .text), norm_texts]
  unfold Walk.flush
  rw [if_neg hw]

theorem sliced_cons {e v : Any} {es vs : List Any} (h1 : Walk.slicedItem W get e = .ok v) (h2 : Walk.slicedItems W get es = .ok vs) :
    Walk.slicedItems W get (e :: es) = .ok (v :: vs) := by
  unfold Walk.slicedItems
  rw [h1]; dsimp only; rw [h2]

theorem sliced_char (c : Char) {es l : List Any} {w : Text} (h : Walk.slicedItems W get es = .ok l) (ht : Texts l w) :
    ∃ l', Walk.slicedItems W get (consBuf [c] es) = .ok l' ∧ Texts l' (c :: w) := by
  have put : ∃ l', Walk.slicedItems W get (.str [c] :: es) = .ok l' ∧ Texts l' (c :: w) := by
    obtain ⟨ws, rfl, rfl⟩ := ht
    exact ⟨_, sliced_cons rfl h, [c] :: ws, rfl, rfl⟩
  cases es with
  | nil => exact put
  | cons e es =>
    cases e <;> first
      | exact put
      | (rename_i u
         cases hq : Walk.slicedItems W get es with
         | error b => simp [Walk.slicedItems, Walk.slicedItem, hq] at h
         | ok l2 =>
           have h' := sliced_cons (W := W) (get := get) (e := .str u) rfl hq
           rw [h'] at h
           obtain rfl := Except.ok.inj h
           obtain ⟨ws, e, rfl⟩ := ht
           cases ws with
           | nil => cases e
           | cons x ws =>
             obtain ⟨e1, rfl⟩ := List.cons.inj (show Any.text u :: l2 = Any.text x :: ws.map Any.text from e)
             obtain rfl := Any.text.inj e1
             exact ⟨_, sliced_cons (e := .str ([c] ++ u)) rfl hq, (c :: u) :: ws, rfl, rfl⟩)

theorem sliced_elems {alnum : Char → Bool} {s : State} (hg : ∀ n, get n = (s.value n).map Any.text) : ∀ {v : List Tok}, (∀ t ∈ v, t.Simple alnum) →
    ∃ l, Walk.slicedItems W get (elems v) = .ok l ∧ Texts l (shown s v)
  | [], _ => ⟨[], rfl, [], rfl, rfl⟩
  | x :: v, h => by
    obtain ⟨l, h1, h2⟩ := sliced_elems hg (v := v) (fun t ht => h t (List.mem_cons_of_mem _ ht))
    have hx := h x List.mem_cons_self
    cases x with
    | kept n => exact hx.elim
    | count n => exact hx.elim
    | step n => exact hx.elim
    | char c =>
      show ∃ l, Walk.slicedItems W get (consV (value (.char c)) (elems v)) = .ok l ∧ Texts l (c :: shown s v)
      rw [value_char hx]
      exact sliced_char c h1 h2
    | ref n =>
      obtain ⟨ws, rfl, e⟩ := h2
      have hv : Walk.slicedItem W get (.ref n) = .ok (.text ((Tok.ref n).shown s)) := by
        show (Walk.valueForRef W get n).map Prod.fst = _
        unfold Walk.valueForRef Tok.shown
        rw [hg n]
        dsimp only
        cases s.value n <;> rfl
      refine ⟨_, sliced_cons hv h1, (Tok.ref n).shown s :: ws, rfl, ?_⟩
      show _ ++ ws.flatten = _ ++ shown s v
      rw [e]

theorem shown_str {alnum : Char → Bool} {s : State} : ∀ {v : List Tok}, (∀ t ∈ v, t.Simple alnum) → ∀ {w : Text}, elems v = [.str w] → shown s v = w
  | [], _, _, he => nomatch he
  | x :: v, h, w, he => by
    have hv : ∀ t ∈ v, t.Simple alnum := fun t ht => h t (List.mem_cons_of_mem _ ht)
    cases x with
    | ref n => cases he
    | kept n => exact (h _ List.mem_cons_self).elim
    | count n => exact (h _ List.mem_cons_self).elim
    | step n => exact (h _ List.mem_cons_self).elim
    | char c =>
      have e : consV (value (.char c)) (elems v) = [.str w] := he
      rw [value_char (h _ List.mem_cons_self)] at e
      replace e : consBuf [c] (elems v) = [.str w] := e
      show c :: shown s v = w
      cases hq : elems v with
      | nil =>
        rw [hq] at e
        have e1 : [c] = w := Any.str.inj (List.cons.inj (show [Any.str [c]] = [.str w] from e)).1
        by_cases hv0 : v = []
        · rw [hv0, ← e1]; rfl
        · exact absurd hq (elems_ne hv hv0)
      | cons y es =>
        rw [hq] at e
        have hy : ∃ u, y = .str u ∧ es = [] ∧ w = c :: u := by
          cases y <;> first
            | exact absurd (List.cons.inj (show Any.str [c] :: _ :: es = [.str w] from e)).2 (fun h => nomatch h)
            | (obtain ⟨e1, e2⟩ := List.cons.inj (show Any.str ([c] ++ _) :: es = [.str w] from e)
               exact ⟨_, rfl, e2, (Any.str.inj e1).symm⟩)
        obtain ⟨u, rfl, rfl, rfl⟩ := hy
        rw [shown_str hv hq]

/-- The value of a declaration, with the values of attributes in it. -/
theorem replaced {alnum : Char → Bool} {s : State} (hg : ∀ n, get n = (s.value n).map Any.text) {v : List Tok} (h : ∀ t ∈ v, t.Simple alnum)
    (hne : shown s v ≠ []) : Walk.replaceValue W get (declared v) = .ok (.text (shown s v)) := by
  unfold declared
  split
  · next w e =>
    rw [shown_str h e]
    rfl
  · next es h1 =>
    obtain ⟨l, h2, h3⟩ := sliced_elems (W := W) hg h
    show (Walk.slicedItems W get (elems v)).map Walk.reduce = _
    rw [h2]
    show Except.ok (Walk.reduce l) = _
    rw [reduce_texts h3 hne]

theorem Knows.opts {c : Walk.Ctx} {s : State} (h : Knows c s) (o : List Walk.Opt) : Knows { c with opts := o } s := ⟨h.api, h.doc, h.counts⟩

/-- A declaration: from there on the attribute has that value. -/
theorem declare_known {alnum : Char → Bool} {c : Walk.Ctx} {s : State} (hK : Knows c s) {n : String} {v : List Tok} (h : ∀ t ∈ v, t.Simple alnum) (hne : shown s v ≠ []) :
    ∃ c', Walk.substDeclare W c n (declared v) = .ok (.declare n (.text (shown s v)), c') ∧ Knows c' (s.put n (some (shown s v))) := by
  have hk : Knows (c.set n (.text (shown s v))) (s.put n (some (shown s v))) := by
    refine ⟨hK.api, fun k => ?_, hK.counts⟩
    show AMap.get (AMap.set c.doc n _) k = Option.map _ (if k = n then _ else _)
    rw [AMap.get_set]
    by_cases hkn : k = n
    · rw [if_pos hkn, if_pos hkn]; rfl
    · rw [if_neg hkn, if_neg hkn]; exact hK.doc k
  refine ⟨if n = "experimental" then { c.set n (.text (shown s v)) with opts := (c.set n (.text (shown s v))).opts ++ [.experimental true] }
    else c.set n (.text (shown s v)), ?_, ?_⟩
  · unfold Walk.substDeclare
    rw [replaced (W := W) hK.get h hne]
  · by_cases he : n = "experimental"
    · rw [if_pos he]; exact hk.opts _
    · rw [if_neg he]; exact hk

/-- A reset: from there on the attribute is not declared. -/
theorem reset_known {c : Walk.Ctx} {s : State} (hK : Knows c s) (n : String) : Knows (Walk.substReset c n) (s.put n none) := by
  have hk : Knows (c.unset n) (s.put n none) := by
    refine ⟨hK.api, fun k => ?_, hK.counts⟩
    show AMap.get (AMap.del c.doc n) k = Option.map _ (if k = n then _ else _)
    rw [AMap.get_del]
    by_cases hkn : k = n
    · rw [if_pos hkn, if_pos hkn]; rfl
    · rw [if_neg hkn, if_neg hkn]; exact hK.doc k
  unfold Walk.substReset
  dsimp only
  by_cases he : n = "experimental"
  · rw [if_pos he]; exact hk.opts _
  · rw [if_neg he]; exact hk

end C67
end Verif
