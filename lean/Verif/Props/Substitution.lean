import Verif.Proofs.SubstMeaning
import Verif.Proofs.KernelRfl
/-!
C23 for whole documents — in every place of a document where references are replaced (Spec/Substitution), they yield the value the
attribute has at that point.
-/
namespace Verif.C23.Doc
open Verif.Walk
open Verif.AttrRefs (CVal)
open Verif.C24 (Occ shown)

theorem context_new (api : AMap Any) : contextAt api [] (newCtx api).counters (newCtx api) := by
  refine ⟨rfl, fun k => ?_, fun opts => ?_, rfl⟩
  · unfold Ctx.get newCtx valueAt; dsimp only
    cases AMap.get api k <;> rfl
  · rw [settle_append]; rfl

theorem counters_new (api : AMap Any) : Rep (newCtx api).counters [] := fun _ => rfl

/-- C23: if the stage succeeds, then the document afterwards has the same structure as before, and what is in each place is as
specified, for the values that the attributes have at that point in reading order. -/
theorem substituted {W : World} {api : AMap Any} {doc out : List Any} {c : Walk.Ctx} (h : substAll W (newCtx api) [] doc = .ok (out, c)) :
    ∃ l, PlacesAll false doc out l ∧ Followed W api [] [] l := by
  obtain ⟨l, hl, hv⟩ := visit_all W api doc false [] [] (newCtx api) out c opts_top (context_new api) h
  exact ⟨l, hl, followed l [] _ _ [] (counters_new api) hv.order⟩

/-! ### The values -/

theorem denotes_unique {W : World} {get : String → Option Any} {n : String} {v v' : Any} (h : Denotes W get n v) (h' : Denotes W get n v') :
    v = v' := by
  cases h with
  | unset h1 => cases h' <;> simp_all
  | formatted h1 h2 => cases h' <;> simp_all
  | author h1 => cases h' <;> simp_all
  | value h1 h2 h3 =>
    cases h' with
    | unset k1 => rw [h1] at k1; cases k1
    | formatted k1 k2 => rw [h1] at k1; cases k1; exact absurd rfl (h2 _)
    | author k1 => rw [h1] at k1; cases k1; exact absurd rfl (h3 _ _ _)
    | value k1 k2 k3 => rw [h1] at k1; cases k1; rfl

/-- A reference to an attribute that is not set stands for itself. -/
theorem unset_literal {W : World} {get : String → Option Any} {n : String} (h : get n = none) (v : Any) :
    Denotes W get n v ↔ v = .text ("{" ++ n ++ "}").toList := by
  have e : ("{" ++ n ++ "}").toList = "{".toList ++ n.toList ++ "}".toList := by simp [String.toList_append]
  rw [e]
  constructor
  · intro h'; exact denotes_unique h' (.unset h)
  · intro h'; subst h'; exact .unset h

/-- A reference to an attribute that is a string stands for that string. -/
theorem set_text {W : World} {get : String → Option Any} {n : String} {t : Text} (h : get n = some (.text t)) (v : Any) :
    Denotes W get n v ↔ v = .text t := by
  have : Denotes W get n (.text t) := .value h (fun _ e => nomatch e) (fun _ _ _ e => nomatch e)
  constructor
  · intro h'; exact denotes_unique h' this
  · intro h'; subst h'; exact this

/-- The text of a piece of a value: texts are themselves, references the text of the attribute, or themselves if it is not set. -/
def pieceText (get : String → Option Any) : Any → Option Text
  | .str t => some t
  | .text t => some t
  | .ref n => match get n with
    | none => some ("{" ++ n ++ "}").toList
    | some (.text t) => some t
    | _ => none
  | _ => none

/-- The text of a value in pieces. -/
def piecesText (get : String → Option Any) : List Any → Option Text
  | [] => some []
  | e :: es => match pieceText get e, piecesText get es with
    | some t, some u => some (t ++ u)
    | _, _ => none

theorem ref_text {W : World} {get : String → Option Any} {n : String} {v : Any} {t : Text} (h : Denotes W get n v)
    (ht : pieceText get (.ref n) = some t) : v = .text t := by
  unfold pieceText at ht
  dsimp only at ht
  cases hg : get n with
  | none => rw [hg] at ht; cases ht; exact (unset_literal hg v).1 h
  | some u =>
    rw [hg] at ht
    cases u with
    | text x => cases ht; exact (set_text hg v).1 h
    | _ => cases ht

theorem item_text {W : World} {get : String → Option Any} {e v : Any} {t : Text} (h : Item W get e v) (ht : pieceText get e = some t) :
    v = .text t := by
  cases e with
  | str x => cases ht; cases h with
    | text => rfl
    | other h1 _ _ => exact absurd rfl (h1 _)
  | text x => cases ht; cases h; rfl
  | ref n => cases h with
    | ref hd => exact ref_text hd ht
    | other _ h1 _ => exact absurd rfl (h1 _)
  | _ => cases ht

theorem inners_texts : ∀ ts : List Text, inners (ts.map Any.text) = ts.map Any.text
  | [] => rfl
  | t :: ts => by rw [List.map_cons]; unfold inners; rw [inners_texts ts]; rfl

theorem mergeLoop_texts : ∀ (ts : List Text) (result : List Any) (buf : Text),
    mergeLoop result buf (ts.map Any.text) = result ++ flush (buf ++ ts.flatten)
  | [], result, buf => by rw [List.map_nil]; unfold mergeLoop; simp
  | t :: ts, result, buf => by rw [List.map_cons]; unfold mergeLoop; rw [mergeLoop_texts ts]; simp

theorem inners_strs : ∀ ts : List Text, inners (ts.map Any.str) = ts.map Any.str
  | [] => rfl
  | t :: ts => by rw [List.map_cons]; unfold inners; rw [inners_strs ts]; rfl

theorem mergeLoop_strs : ∀ (ts : List Text) (result : List Any) (buf : Text),
    mergeLoop result buf (ts.map Any.str) = result ++ flush (buf ++ ts.flatten)
  | [], result, buf => by rw [List.map_nil]; unfold mergeLoop; simp
  | t :: ts, result, buf => by rw [List.map_cons]; unfold mergeLoop; rw [mergeLoop_strs ts]; simp

/-- What a text is as a value. -/
def textValue (t : Text) : Any := if t = [] then .nil else .text t

theorem reduce_flush (es : List Any) (t : Text) (h : merge es = flush t) : reduce es = textValue t := by
  unfold reduce textValue
  rw [h]
  unfold flush
  by_cases ht : t = []
  · rw [if_pos ht, if_pos ht]
  · rw [if_neg ht, if_neg ht]

theorem reduce_texts (ts : List Text) : reduce (ts.map Any.text) = textValue ts.flatten :=
  reduce_flush _ _ (by unfold merge; rw [inners_texts, mergeLoop_texts]; simp)

theorem reduce_strs (ts : List Text) : reduce (ts.map Any.str) = textValue ts.flatten :=
  reduce_flush _ _ (by unfold merge; rw [inners_strs, mergeLoop_strs]; simp)

theorem items_texts {W : World} {get : String → Option Any} : ∀ {es l : List Any} {t : Text}, Items W get es l →
    piecesText get es = some t → ∃ ts : List Text, l = ts.map Any.text ∧ ts.flatten = t
  | _, _, t, .nil, h => by cases h; exact ⟨[], rfl, rfl⟩
  | _, _, t, .cons (e := e) (es := es) hi hr, h => by
    unfold piecesText at h
    cases h1 : pieceText get e with
    | none => rw [h1] at h; cases h
    | some u =>
      rw [h1] at h
      cases h2 : piecesText get es with
      | none => rw [h2] at h; cases h
      | some w =>
        rw [h2] at h; cases h
        obtain ⟨ts, rfl, rfl⟩ := items_texts hr h2
        rw [item_text hi h1]
        exact ⟨u :: ts, rfl, rfl⟩

/-- C23 for attribute values (in declarations and of elements): a value that consists of texts and references to attributes that
are strings or not set becomes the text with each reference replaced by the value, or left as it is. -/
theorem value_text {W : World} {get : String → Option Any} {es : List Any} {v' : Any} {t : Text} (h : Value W get (.slice es) v')
    (ht : piecesText get es = some t) : v' = textValue t := by
  cases h with
  | pieces hi =>
    obtain ⟨ts, rfl, rfl⟩ := items_texts hi ht
    exact reduce_texts ts
  | other h1 _ _ => exact absurd rfl (h1 _)

/-- Other values are not changed. -/
theorem value_unchanged {W : World} {get : String → Option Any} {v v' : Any} (h : Value W get v v') (h1 : ∀ es, v ≠ .slice es)
    (h2 : ∀ l, v ≠ .roles l) (h3 : ∀ l, v ≠ .options l) : v' = v := by
  cases h with
  | pieces _ => exact absurd rfl (h1 _)
  | roles _ => exact absurd rfl (h2 _)
  | options _ => exact absurd rfl (h3 _)
  | other _ _ _ => rfl

/-- The attributes of an element keep their names and order. -/
theorem keys_kept {W : World} {get : String → Option Any} {exp nested : Bool} : ∀ {a a' : Attrs}, AttrsAfter W get exp nested a a' →
    a'.map Prod.fst = a.map Prod.fst
  | _, _, .nil => rfl
  | _, _, .cons _ _ h => by rw [List.map_cons, List.map_cons, keys_kept h]

/-- Attributes that are not parsed again (all but titles, labels, texts of links and columns) have their value with the references
replaced. -/
theorem attr_after {W : World} {get : String → Option Any} {exp nested : Bool} : ∀ {a a' : Attrs}, AttrsAfter W get exp nested a a' →
    ∀ {k : String} {v : Any}, k ≠ "title" → k ≠ "xrefLabel" → k ≠ "text" → k ≠ "cols" → AMap.get a k = some v →
    ∃ v', AMap.get a' k = some v' ∧ Value W get v v'
  | _, _, .nil, k, v, _, _, _, _, h => by cases h
  | _, _, .cons (k := k') (v := u) (r := r) (v' := w) hv hf hr, k, v, h1, h2, h3, h4, h => by
    rw [AMap.get_cons] at h
    rw [AMap.get_cons]
    by_cases hk : k' = k
    · subst hk
      simp only [if_true] at h
      cases h
      unfold Formatted at hf
      rw [if_neg (by simp [h1, h2]), if_neg h3, if_neg h4] at hf
      subst hf
      exact ⟨_, by simp, hv⟩
    · simp only [hk, if_false] at h ⊢
      exact attr_after hr h1 h2 h3 h4 h

/-! ### Content and locations -/

/-- The text of elements that are texts, references and counters, where `h` are the occurrences of counters before. -/
def inlineText (get : String → Option Any) (h : List Occ) : List Any → Option Text
  | [] => some []
  | .counter n s hid :: es => match inlineText get (h ++ [⟨n, s, hid⟩]) es with
    | some u => some (shown h ⟨n, s, hid⟩ ++ u)
    | none => none
  | .str t :: es => match inlineText get h es with
    | some u => some (t ++ u)
    | none => none
  | .ref n :: es => match pieceText get (.ref n), inlineText get h es with
    | some t, some u => some (t ++ u)
    | _, _ => none
  | _ => none

theorem path_strs {W : World} {get : String → Option Any} : ∀ {h : List Occ} {es es' : List Any} {o : List Occ} {t : Text},
    Path W get h es es' o → inlineText get h es = some t → ∃ ts : List Text, es' = ts.map Any.str ∧ ts.flatten = t
  | _, _, _, _, t, .nil, ht => by cases ht; exact ⟨[], rfl, rfl⟩
  | h, _, _, _, t, .ref (n := n) (es := es) hd hp, ht => by
    unfold inlineText at ht
    cases h1 : pieceText get (.ref n) with
    | none => rw [h1] at ht; cases ht
    | some u =>
      rw [h1] at ht
      cases h2 : inlineText get h es with
      | none => rw [h2] at ht; cases ht
      | some w =>
        rw [h2] at ht; cases ht
        obtain ⟨ts, rfl, rfl⟩ := path_strs hp h2
        rw [ref_text hd h1]
        exact ⟨u :: ts, rfl, rfl⟩
  | h, _, _, _, t, .counter (n := n) (s := s) (hid := hid) (es := es) hp, ht => by
    unfold inlineText at ht
    cases h2 : inlineText get (h ++ [⟨n, s, hid⟩]) es with
    | none => rw [h2] at ht; cases ht
    | some w =>
      rw [h2] at ht; cases ht
      obtain ⟨ts, rfl, rfl⟩ := path_strs hp h2
      exact ⟨_ :: ts, rfl, rfl⟩
  | h, _, _, _, t, .other (e := e) (es := es) h1 h2 hp, ht => by
    cases e with
    | ref n => exact absurd rfl (h1 n)
    | counter n s hid => exact absurd rfl (h2 n s hid)
    | str x =>
      unfold inlineText at ht
      cases h3 : inlineText get h es with
      | none => rw [h3] at ht; cases ht
      | some w =>
        rw [h3] at ht; cases ht
        obtain ⟨ts, rfl, rfl⟩ := path_strs hp h3
        exact ⟨x :: ts, rfl, rfl⟩
    | _ => cases ht

/-- C23 for locations: a path of texts, references and counters becomes the text with these replaced. -/
theorem location_text {W : World} {get : String → Option Any} {h o : List Occ} {es : List Any} {l' : Option Any} {t : Text}
    (hl : Location W get h (some (.slice es)) l' o) (ht : inlineText get h es = some t) : l' = some (textValue t) := by
  cases hl with
  | pieces hp =>
    obtain ⟨ts, rfl, rfl⟩ := path_strs hp ht
    rw [reduce_strs]
  | other h1 => exact absurd rfl (h1 _)

theorem inlines_strs {W : World} {get : String → Option Any} {later : Option (List Subs.Sub)} : ∀ {h : List Occ} {es es' : List Any}
    {o : List Occ} {t : Text}, Inlines W get later h es es' o → inlineText get h es = some t →
      ∃ ts : List Text, es' = ts.map Any.str ∧ ts.flatten = t
  | _, _, _, _, t, .nil, ht => by cases ht; exact ⟨[], rfl, rfl⟩
  | h, _, _, _, t, .cons (e := e) (es := es) (o := o) hi hp, ht => by
    cases e with
    | ref n =>
      unfold inlineText at ht
      cases h1 : pieceText get (.ref n) with
      | none => rw [h1] at ht; cases ht
      | some u =>
        rw [h1] at ht
        cases h2 : inlineText get h es with
        | none => rw [h2] at ht; cases ht
        | some w =>
          rw [h2] at ht; cases ht
          cases hi with
          | ref hd =>
            rw [List.append_nil] at hp
            obtain ⟨ts, rfl, rfl⟩ := inlines_strs hp h2
            rw [ref_text hd h1]
            exact ⟨u :: ts, rfl, rfl⟩
          | other hf => cases hf
    | counter n s hid =>
      unfold inlineText at ht
      cases h2 : inlineText get (h ++ [⟨n, s, hid⟩]) es with
      | none => rw [h2] at ht; cases ht
      | some w =>
        rw [h2] at ht; cases ht
        cases hi with
        | counter =>
          obtain ⟨ts, rfl, rfl⟩ := inlines_strs hp h2
          exact ⟨_ :: ts, rfl, rfl⟩
        | other hf => cases hf
    | str x =>
      unfold inlineText at ht
      cases h3 : inlineText get h es with
      | none => rw [h3] at ht; cases ht
      | some w =>
        rw [h3] at ht; cases ht
        cases hi with
        | other hf =>
          rw [List.append_nil] at hp
          obtain ⟨ts, rfl, rfl⟩ := inlines_strs hp h3
          exact ⟨x :: ts, rfl, rfl⟩
    | _ => cases ht

/-- C23 for content: texts, references and counters become the texts with these replaced; they are parsed again if a reference was
replaced and there are substitutions left. -/
theorem content_text {W : World} {get : String → Option Any} {subs : List Subs.Sub} {h o : List Occ} {es es' : List Any} {t : Text}
    (hr : Replaced W get subs h es es' o) (ht : inlineText get h es = some t) :
    ∃ ts : List Text, ts.flatten = t ∧ (es' = ts.map Any.str ∨
      (∃ n v, Any.ref n ∈ es ∧ get n = some v) ∧ ∃ s, later subs = some s ∧
        Parsed W ⟨.normalGroup, false, s, false⟩ (.slice (ts.map Any.str)) es') := by
  obtain ⟨mid, h1, h2⟩ := hr
  obtain ⟨ts, rfl, e⟩ := inlines_strs h1 ht
  refine ⟨ts, e, ?_⟩
  unfold Again at h2
  cases hl : later subs with
  | none => rw [hl] at h2; exact .inl h2
  | some s =>
    rw [hl] at h2
    dsimp only at h2
    cases hs : es.any (isSet get) with
    | false => rw [hs, if_neg (by decide)] at h2; exact .inl h2
    | true =>
      rw [hs, if_pos rfl] at h2
      refine .inr ⟨?_, s, rfl, h2⟩
      obtain ⟨e, he, hset⟩ := List.any_eq_true.1 hs
      cases e with
      | ref n => exact let ⟨v, hv⟩ := Option.isSome_iff_exists.1 hset; ⟨n, v, he, hv⟩
      | _ => cases hset

/-- The text that is parsed again is the text with the references replaced. -/
theorem parsed_text {W : World} {s : Settings} {ts : List Text} {es : List Any} (h : Parsed W s (.slice (ts.map Any.str)) es) :
    (ts.flatten = [] ∧ es = []) ∨ ∃ es', W.parse s ts.flatten = some es' ∧ FilledAll [] es' es := by
  have hs : ∀ (ts : List Text) n t l, Marked n (ts.map Any.str) t l → t = ts.flatten ∧ l = [] := by
    intro ts
    induction ts with
    | nil => intro n t l h; cases h; exact ⟨rfl, rfl⟩
    | cons x ts ih =>
      intro n t l h
      cases h with
      | text hw hm =>
        obtain ⟨rfl, rfl⟩ := ih _ _ _ hm
        cases hw
        exact ⟨rfl, rfl⟩
      | other hw _ => cases hw
  have key : ∀ {t : Text} {l : List Any}, Serialized (.slice (ts.map Any.str)) t l → t = ts.flatten ∧ l = [] := by
    intro t l h
    cases h with
    | slice hm => exact hs _ _ _ _ hm
  cases h with
  | nothing h1 => exact .inl ⟨(key h1).1.symm, rfl⟩
  | some h1 h2 h3 h4 => obtain ⟨rfl, rfl⟩ := key h1; exact .inr ⟨_, h3, h4⟩

/-- Content without references and counters, and without elements that have attributes, is what the first parse gave. -/
theorem content_unchanged {W : World} {get : String → Option Any} {subs : List Subs.Sub} {h o : List Occ} {es es' : List Any}
    (hr : Replaced W get subs h es es' o) (hf : ∀ e ∈ es, fixed e = true) : es' = es ∧ o = [] := by
  obtain ⟨mid, h1, h2⟩ := hr
  have : ∀ {h : List Occ} {es mid : List Any} {o : List Occ}, Inlines W get (later subs) h es mid o → (∀ e ∈ es, fixed e = true) →
      mid = es ∧ o = [] := by
    intro h es
    induction es generalizing h with
    | nil => intro mid o hi _; cases hi; exact ⟨rfl, rfl⟩
    | cons e es ih =>
      intro mid o hi hf
      cases hi with
      | cons hi hr =>
        obtain ⟨rfl, rfl⟩ := ih hr (fun e he => hf e (List.mem_cons_of_mem _ he))
        have hfe := hf e List.mem_cons_self
        cases hi with
        | other _ => exact ⟨rfl, rfl⟩
        | _ => cases hfe
  obtain ⟨rfl, rfl⟩ := this h1 hf
  refine ⟨?_, rfl⟩
  unfold Again at h2
  cases hl : later subs with
  | none => rw [hl] at h2; exact h2
  | some s =>
    rw [hl] at h2
    dsimp only at h2
    have : mid.any (isSet get) = false := by
      rw [List.any_eq_false]
      intro e he
      have := hf e he
      cases e <;> first | (intro x; cases x; done) | cases this
    rw [this, if_neg (by decide)] at h2
    exact h2

/-! ### The current values -/

/-- Attributes given through the API have that value everywhere. -/
theorem api_value {api : AMap Any} {k : String} {v : Any} (h : AMap.get api k = some v) (done : List Site) : valueAt api done k = some v := by
  unfold valueAt; rw [h]

/-- Otherwise the value is that of the last declaration, if the attribute was not assigned since. -/
theorem declared_at {api : AMap Any} {k : String} (h : AMap.get api k = none) (before after : List Site) (v v' : Any)
    (ha : ∀ s ∈ after, ∀ p ∈ s.assigns, p.1 ≠ k) : valueAt api (before ++ .declare k v v' :: after) k = some v' := by
  unfold valueAt
  rw [h]
  dsimp only
  rw [List.flatMap_append, List.flatMap_cons, lastOf_append, lastFrom_append]
  have : ∀ (l : List (String × Option Any)) (cur : Option Any), (∀ p ∈ l, p.1 ≠ k) → lastFrom k cur l = cur := by
    intro l
    induction l with
    | nil => intro cur _; rfl
    | cons p l ih =>
      intro cur hl
      show lastFrom k (if p.1 = k then p.2 else cur) l = cur
      rw [if_neg (hl p List.mem_cons_self), ih cur (fun p hp => hl p (List.mem_cons_of_mem _ hp))]
  rw [this _ _ (fun p hp => by obtain ⟨s, hs, hp'⟩ := List.mem_flatMap.1 hp; exact ha s hs p hp')]
  show (if k = k then some v' else _) = _
  rw [if_pos rfl]

/-- After a reset, the attribute is not set. -/
theorem reset_at {api : AMap Any} {k : String} (h : AMap.get api k = none) (before after : List Site)
    (ha : ∀ s ∈ after, ∀ p ∈ s.assigns, p.1 ≠ k) : valueAt api (before ++ .reset k :: after) k = none := by
  unfold valueAt
  rw [h]
  dsimp only
  rw [List.flatMap_append, List.flatMap_cons, lastOf_append, lastFrom_append]
  have : ∀ (l : List (String × Option Any)) (cur : Option Any), (∀ p ∈ l, p.1 ≠ k) → lastFrom k cur l = cur := by
    intro l
    induction l with
    | nil => intro cur _; rfl
    | cons p l ih =>
      intro cur hl
      show lastFrom k (if p.1 = k then p.2 else cur) l = cur
      rw [if_neg (hl p List.mem_cons_self), ih cur (fun p hp => hl p (List.mem_cons_of_mem _ hp))]
  rw [this _ _ (fun p hp => by obtain ⟨s, hs, hp'⟩ := List.mem_flatMap.1 hp; exact ha s hs p hp')]
  show (if k = k then none else _) = _
  rw [if_pos rfl]

/-- An attribute that is never assigned is not set. -/
theorem never_set {api : AMap Any} {k : String} (h : AMap.get api k = none) (done : List Site)
    (ha : ∀ s ∈ done, ∀ p ∈ s.assigns, p.1 ≠ k) : valueAt api done k = none := by
  unfold valueAt
  rw [h]
  dsimp only
  have : ∀ (l : List (String × Option Any)) (cur : Option Any), (∀ p ∈ l, p.1 ≠ k) → lastFrom k cur l = cur := by
    intro l
    induction l with
    | nil => intro cur _; rfl
    | cons p l ih =>
      intro cur hl
      show lastFrom k (if p.1 = k then p.2 else cur) l = cur
      rw [if_neg (hl p List.mem_cons_self), ih cur (fun p hp => hl p (List.mem_cons_of_mem _ hp))]
  exact this _ none (fun p hp => by obtain ⟨s, hs, hp'⟩ := List.mem_flatMap.1 hp; exact ha s hs p hp')

/-! ### An example -/

/-- A parser that knows texts and the content `{x}`. -/
def sampleWorld : World where
  parse s t := if t = "{x}".toList ∧ Subs.Sub.attributes ∈ s.subs then some [.ref "x"] else some [.str t]
  plainText _ := none
  attribution _ := none
  format _ := []

/-- `:x: 1`, a paragraph with title and `{x}`, an image, `:!x:`, the same paragraph in a sidebar, a section with a title that refers
to `x` and has a counter. -/
def sampleDoc : List Any :=
  [.declare "x" (.slice [.str ['1'], .counter "n" none false]),
   .declare "x" (.slice [.str ['1'], .ref "y"]),
   .paragraph [("title", .slice [.str ['T'], .ref "x"]), ("id", .text ['p'])] [.raw "{x}".toList],
   .located 0 [("alt", .slice [.ref "x", .ref "x"])] (some (.slice [.str ['/'], .ref "x", .counter "n" none false])),
   .reset "x",
   .block .sidebar [] [.paragraph [] [.raw "{x}".toList]],
   .section 1 [] [.ref "z", .counter "n" none false, .str [' ']]]

theorem sample_result : (substAll sampleWorld (newCtx [("z", .text "API".toList)]) [] sampleDoc).map Prod.fst =
    .ok [.declare "x" (.slice [.str ['1'], .counter "n" none false]),
      .declare "x" (.text "1{y}".toList),
      .paragraph [("title", .text "T1{y}".toList), ("id", .text ['p'])] [.str "1{y}".toList],
      .located 0 [("alt", .text "1{y}1{y}".toList)] (some (.text "/1{y}1".toList)),
      .reset "x",
      .block .sidebar [] [.paragraph [] [.str "{x}".toList]],
      .section 1 [] [.str "API2".toList]] := by kernel_rfl

/-- The hypothesis of `substituted` is met by this document. -/
example : ∃ out c, substAll sampleWorld (newCtx [("z", .text "API".toList)]) [] sampleDoc = .ok (out, c) := by
  have h := sample_result
  cases hs : substAll sampleWorld (newCtx [("z", .text "API".toList)]) [] sampleDoc with
  | error b => rw [hs] at h; cases h
  | ok p => exact ⟨p.1, p.2, rfl⟩

/-- Finding: a reference in a footnote (or in the label of a cross reference, or in an index term) is not replaced, though the parser
makes a reference of it: here the attribute `x` is set. (The renderer has no case for references, so the conversion then fails.) -/
theorem finding_footnote (n : Nat) (v : Text) :
    (substAll { sampleWorld with parse := fun _ _ => some [.str ['a'], .closed n [.ref "x"]] } (newCtx [("x", .text v)]) []
      [.paragraph [] [.raw "afootnote:[{x}]".toList]]).map Prod.fst =
    .ok [.paragraph [] [.str ['a'], .closed n [.ref "x"]]] := by kernel_rfl

/-- Finding: the cells of the header of a table are only substituted if they hold exactly one paragraph. -/
theorem finding_header_cell (v : Text) :
    (substAll sampleWorld (newCtx [("x", .text v)]) []
      [.table [] (some [.cell 0 [.paragraph [] [.raw "{x}".toList], .leaf 0]]) [] none]).map Prod.fst =
    .ok [.table [] (some [.cell 0 [.paragraph [] [.raw "{x}".toList], .leaf 0]]) [] none] := by kernel_rfl

/-- Finding: a counter in the value of an attribute is not replaced, nor counted. -/
theorem finding_counter_in_value :
    (substAll sampleWorld (newCtx []) [] [.declare "x" (.slice [.str ['1'], .counter "n" none false]), .section 1 [] [.counter "n" none false]]).map
      Prod.fst = .ok [.declare "x" (.slice [.str ['1'], .counter "n" none false]), .section 1 [] [.str ['1']]] := by kernel_rfl

end Verif.C23.Doc
