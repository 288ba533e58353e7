import Verif.Proofs.Substitute
/-!
The functions of the substitution stage compute what the specification says (for C23).
-/
namespace Verif.C23.Doc
open Verif.Walk
open Verif.AttrRefs (CVal)
open Verif.C24 (Occ shown)

/-! ### Values -/

theorem denotes {W : World} {get : String → Option Any} {name : String} {v : Any} {b : Bool}
    (h : valueForRef W get name = .ok (v, b)) : Denotes W get name v ∧ b = (get name).isSome := by
  unfold valueForRef at h
  revert h
  cases hg : get name with
  | none => intro h; cases h; exact ⟨.unset hg, rfl⟩
  | some u =>
    cases u with
    | slice es =>
      dsimp only
      cases hp : W.plainText es with
      | none => intro h; cases h
      | some t => intro h; cases h; exact ⟨.formatted hg hp, rfl⟩
    | fullName f m l => intro h; cases h; exact ⟨.author hg, rfl⟩
    | _ => intro h; cases h; exact ⟨.value hg (fun _ e => nomatch e) (fun _ _ _ e => nomatch e), rfl⟩

mutual
theorem item {W : World} {get : String → Option Any} : ∀ (e v : Any), slicedItem W get e = .ok v → Item W get e v
  | .str t, v, h => by unfold slicedItem at h; cases h; exact .text
  | .ref n, v, h => by
    unfold slicedItem at h
    cases hv : valueForRef W get n with
    | error b => rw [hv] at h; cases h
    | ok p => rw [hv] at h; cases h; exact .ref (denotes (show valueForRef W get n = .ok (p.1, p.2) from hv)).1
  | .slice es, v, h => by
    conv at h => lhs; unfold slicedItem
    cases hv : slicedItems W get es with
    | error b => rw [hv] at h; cases h
    | ok l => rw [hv] at h; cases h; exact .slice (items es l hv)
  | .nil, v, h | .text _, v, h | .plain _, v, h | .fullName _ _ _, v, h | .roles _, v, h | .options _, v, h | .counter _ _ _, v, h
  | .raw _, v, h | .special _, v, h | .dash, v, h | .holder _, v, h | .anchor _, v, h | .column _, v, h | .leaf _, v, h
  | .closed _ _, v, h | .passthrough _, v, h | .located _ _ _, v, h | .group _ _ _, v, h | .paragraph _ _, v, h | .block _ _ _, v, h
  | .labeled _ _ _ _, v, h | .continuation _ _, v, h | .cell _ _, v, h | .table _ _ _ _, v, h | .section _ _ _, v, h
  | .header _ _ _, v, h | .declare _ _, v, h | .reset _, v, h | .authors _, v, h | .revision _ _ _, v, h | .frontMatter _, v, h => by
    unfold slicedItem at h; cases h; exact .other (fun _ e => nomatch e) (fun _ e => nomatch e) (fun _ e => nomatch e)
theorem items {W : World} {get : String → Option Any} : ∀ (es l : List Any), slicedItems W get es = .ok l → Items W get es l
  | [], l, h => by unfold slicedItems at h; cases h; exact .nil
  | e :: es, l, h => by
    conv at h => lhs; unfold slicedItems
    cases h1 : slicedItem W get e with
    | error b => rw [h1] at h; cases h
    | ok v =>
      rw [h1] at h
      dsimp only at h
      cases h2 : slicedItems W get es with
      | error b => rw [h2] at h; cases h
      | ok l' => rw [h2] at h; cases h; exact .cons (item e v h1) (items es l' h2)
end

mutual
theorem value {W : World} {get : String → Option Any} : ∀ (v v' : Any), replaceValue W get v = .ok v' → Value W get v v'
  | .slice es, v', h => by
    unfold replaceValue slicedValue at h
    cases hv : slicedItems W get es with
    | error b => rw [hv] at h; cases h
    | ok l => rw [hv] at h; cases h; exact .pieces (items es l hv)
  | .roles l, v', h => by
    conv at h => lhs; unfold replaceValue
    cases hv : replaceValues W get l with
    | error b => rw [hv] at h; cases h
    | ok l' => rw [hv] at h; cases h; exact .roles (values l l' hv)
  | .options l, v', h => by
    conv at h => lhs; unfold replaceValue
    cases hv : replaceValues W get l with
    | error b => rw [hv] at h; cases h
    | ok l' => rw [hv] at h; cases h; exact .options (values l l' hv)
  | .nil, v, h | .text _, v, h | .plain _, v, h | .fullName _ _ _, v, h | .str _, v, h | .ref _, v, h | .counter _ _ _, v, h
  | .raw _, v, h | .special _, v, h | .dash, v, h | .holder _, v, h | .anchor _, v, h | .column _, v, h | .leaf _, v, h
  | .closed _ _, v, h | .passthrough _, v, h | .located _ _ _, v, h | .group _ _ _, v, h | .paragraph _ _, v, h | .block _ _ _, v, h
  | .labeled _ _ _ _, v, h | .continuation _ _, v, h | .cell _ _, v, h | .table _ _ _ _, v, h | .section _ _ _, v, h
  | .header _ _ _, v, h | .declare _ _, v, h | .reset _, v, h | .authors _, v, h | .revision _ _ _, v, h | .frontMatter _, v, h => by
    unfold replaceValue at h; cases h; exact .other (fun _ e => nomatch e) (fun _ e => nomatch e) (fun _ e => nomatch e)
theorem values {W : World} {get : String → Option Any} : ∀ (l l' : List Any), replaceValues W get l = .ok l' → Values W get l l'
  | [], l', h => by unfold replaceValues at h; cases h; exact .nil
  | v :: l, l', h => by
    conv at h => lhs; unfold replaceValues
    cases h1 : replaceValue W get v with
    | error b => rw [h1] at h; cases h
    | ok v' =>
      rw [h1] at h
      dsimp only at h
      cases h2 : replaceValues W get l with
      | error b => rw [h2] at h; cases h
      | ok l' => rw [h2] at h; cases h; exact .cons (value v v' h1) (values l l' h2)
end

theorem attrValues {W : World} {get : String → Option Any} : ∀ (a a' : Attrs), replaceAttrs W get a = .ok a' → AttrValues W get a a'
  | [], a', h => by unfold replaceAttrs at h; cases h; exact .nil
  | (k, v) :: a, a', h => by
    conv at h => lhs; unfold replaceAttrs
    cases h1 : replaceValue W get v with
    | error b => rw [h1] at h; cases h
    | ok v' =>
      rw [h1] at h
      dsimp only at h
      cases h2 : replaceAttrs W get a with
      | error b => rw [h2] at h; cases h
      | ok l' => rw [h2] at h; cases h; exact .cons (value v v' h1) (attrValues a l' h2)

/-! ### Parsing again -/

theorem itoa_text (k : Nat) : Verif.itoa k = (toString k).toList := Nat.toList_repr.symm

theorem itoa_inj {j k : Nat} (h : Verif.itoa j = Verif.itoa k) : j = k := by
  have := congrArg (fun l => Nat.ofDigitChars 10 l 0) h
  simpa [Verif.itoa, Nat.ofDigitChars_toDigits] using this

theorem written_eq (e : Any) : textOf e = written e := by cases e <;> rfl

/-- The store of the elements `l`, numbered from `n + 1`. -/
def storeOf (n : Nat) : List Any → List (Text × Any)
  | [] => []
  | e :: l => (Verif.itoa (n + 1), e) :: storeOf (n + 1) l

theorem marked : ∀ (es : List Any) (n : Nat), ∃ l, Marked n es (serializeLoop n es).1 l ∧ (serializeLoop n es).2 = storeOf n l
  | [], n => ⟨[], .nil, rfl⟩
  | e :: es, n => by
    unfold serializeLoop
    cases h : textOf e with
    | some x =>
      obtain ⟨l, h1, h2⟩ := marked es n
      exact ⟨l, .text (by rw [← written_eq]; exact h) h1, h2⟩
    | none =>
      obtain ⟨l, h1, h2⟩ := marked es (n + 1)
      refine ⟨e :: l, ?_, ?_⟩
      · have := Marked.other (e := e) (by rw [← written_eq]; exact h) h1
        unfold mark at this
        rw [← itoa_text] at this
        exact this
      · dsimp only; rw [h2]; rfl

theorem lookup_store : ∀ (l : List Any) (n : Nat) (r : Text),
    (∃ k x, r = Verif.itoa (n + k + 1) ∧ l[k]? = some x ∧ (storeOf n l).lookup r = some x) ∨
      ((∀ k, k < l.length → r ≠ Verif.itoa (n + k + 1)) ∧ (storeOf n l).lookup r = none)
  | [], n, r => .inr ⟨fun k h => absurd h (Nat.not_lt_zero k), rfl⟩
  | e :: l, n, r => by
    unfold storeOf
    rw [List.lookup_cons]
    by_cases hr : r = Verif.itoa (n + 1)
    · exact .inl ⟨0, e, hr, rfl, by rw [hr]; simp⟩
    · have hb : (r == Verif.itoa (n + 1)) = false := by simpa using hr
      rw [hb]
      rcases lookup_store l (n + 1) r with ⟨k, x, h1, h2, h3⟩ | ⟨h1, h2⟩
      · exact .inl ⟨k + 1, x, by rw [h1]; congr 1; omega, h2, h3⟩
      · refine .inr ⟨fun k hk => ?_, h2⟩
        cases k with
        | zero => exact hr
        | succ k =>
          have := h1 k (by simpa using hk)
          rwa [show n + (k + 1) + 1 = n + 1 + k + 1 by omega]

mutual
theorem filled (l : List Any) : ∀ e : Any, Filled l e (restoreOne (storeOf 0 l) e)
  | .holder r => by
    unfold restoreOne
    rcases lookup_store l 0 r with ⟨k, x, h1, h2, h3⟩ | ⟨h1, h2⟩
    · rw [h3, h1, itoa_text, Nat.zero_add]
      exact .mark h2
    · rw [h2]
      refine .stray (fun k hk e => h1 k hk ?_)
      rw [e, itoa_text, Nat.zero_add]
  | .group _ _ es => .group (filledAll l es)
  | .paragraph _ es => .paragraph (filledAll l es)
  | .block _ _ es => .block (filledAll l es)
  | .labeled _ _ _ es => .labeled (filledAll l es)
  | .cell _ es => .cell (filledAll l es)
  | .header _ _ es => .header (filledAll l es)
  | .table _ _ rows _ => .table (filledRows l rows)
  | .nil | .text _ | .plain _ | .fullName _ _ _ | .slice _ | .roles _ | .options _ | .ref _ | .counter _ _ _ | .str _ | .raw _ => .solid rfl
  | .special _ | .dash | .anchor _ | .column _ | .leaf _ | .closed _ _ | .passthrough _ | .located _ _ _ => .solid rfl
  | .authors _ | .continuation _ _ | .frontMatter _ | .declare _ _ | .reset _ | .section _ _ _ | .revision _ _ _ => .solid rfl
theorem filledAll (l : List Any) : ∀ es : List Any, FilledAll l es (restore (storeOf 0 l) es)
  | [] => .nil
  | e :: es => .cons (filled l e) (filledAll l es)
theorem filledRows (l : List Any) : ∀ rows : List (List Any), FilledRows l rows (restoreRows (storeOf 0 l) rows)
  | [] => .nil
  | r :: rs => .cons (filledAll l r) (filledRows l rs)
end

theorem serialized {content : Any} {t : Text} {store : List (Text × Any)} (h : serialize content = .ok (t, store)) :
    ∃ l, Serialized content t l ∧ store = storeOf 0 l := by
  cases content with
  | text x => cases h; exact ⟨[], .text, rfl⟩
  | slice es =>
    obtain ⟨l, h1, h2⟩ := marked es 0
    have h : Except.ok (serializeLoop 0 es) = (.ok (t, store) : Except Bad _) := h
    have h := Except.ok.inj h
    rw [h] at h1 h2
    exact ⟨l, .slice h1, h2⟩
  | _ => cases h

theorem dropSpaces : ∀ r : Text, (∃ n, r = List.replicate n ' ' ∧ r.dropWhile (· == ' ') = []) ∨
    ∃ n c u, c ≠ ' ' ∧ r = List.replicate n ' ' ++ c :: u ∧ r.dropWhile (· == ' ') = c :: u
  | [] => .inl ⟨0, rfl, rfl⟩
  | c :: r => by
    by_cases hc : c = ' '
    · subst hc
      rw [List.dropWhile_cons_of_pos (by decide)]
      rcases dropSpaces r with ⟨n, h1, h2⟩ | ⟨n, c, u, h1, h2, h3⟩
      · exact .inl ⟨n + 1, by rw [List.replicate_succ, ← h1], h2⟩
      · exact .inr ⟨n + 1, c, u, h1, by rw [List.replicate_succ, List.cons_append, ← h2], h3⟩
    · exact .inr ⟨0, c, r, hc, rfl, by rw [List.dropWhile_cons_of_neg (by simpa using hc)]⟩

theorem trimSpaces_cases (t : Text) : (∃ n, t = List.replicate n ' ' ∧ trimSpaces t = []) ∨
    ∃ u c n, c ≠ ' ' ∧ t = u ++ c :: List.replicate n ' ' ∧ trimSpaces t = u ++ [c] := by
  unfold trimSpaces
  rcases dropSpaces t.reverse with ⟨n, h1, h2⟩ | ⟨n, c, u, h1, h2, h3⟩
  · refine .inl ⟨n, ?_, by rw [h2]; rfl⟩
    have := congrArg List.reverse h1
    simpa using this
  · refine .inr ⟨u.reverse, c, n, h1, ?_, by rw [h3]; simp⟩
    have := congrArg List.reverse h2
    simpa using this

theorem trimmed (es : List Any) : Trimmed es (trimTitle es) := by
  unfold trimTitle
  cases h : es.getLast? with
  | none => exact .other (by rw [h]; intro t e; cases e)
  | some e =>
    have key : (∀ t, e ≠ .str t) → Trimmed es es := fun hn => .other (by rw [h]; intro t e'; exact hn t (Option.some.inj e'))
    cases e with
    | str t =>
      dsimp only
      have hes : es = es.dropLast ++ [.str t] := by
        cases hn : es with
        | nil => rw [hn] at h; cases h
        | cons x xs =>
          have := List.dropLast_concat_getLast (l := x :: xs) (List.cons_ne_nil _ _)
          rw [hn, List.getLast?_eq_some_getLast (List.cons_ne_nil _ _)] at h
          rw [Option.some.inj h] at this
          exact this.symm
      rcases trimSpaces_cases t with ⟨n, h1, h2⟩ | ⟨u, c, n, h1, h2, h3⟩
      · rw [if_pos h2]
        conv => arg 1; rw [hes, h1]
        exact .spaces
      · rw [if_neg (by rw [h3]; simp), h3]
        conv => arg 1; rw [hes, h2]
        exact .text h1
    | _ => exact key (fun t e => nomatch e)

theorem titleSet {W : World} {a a' : Attrs} {t t' : List Any} (h : setSectionTitle W a t = .ok (a', t')) : TitleSet W a t a' t' := by
  unfold setSectionTitle at h
  cases hl : t.getLast? with
  | none => rw [hl] at h; cases h
  | some e =>
    rw [hl] at h
    have key : (∀ v, e ≠ .anchor v) → Except.ok (a, trimTitle t) = (.ok (a', t') : Except Bad _) → TitleSet W a t a' t' := by
      intro hn h
      cases h
      exact .plain hl hn (trimmed t)
    cases e with
    | anchor v =>
      cases h
      have ht : t = t.dropLast ++ [.anchor v] := by
        cases hn : t with
        | nil => rw [hn] at hl; cases hl
        | cons x xs =>
          have := List.dropLast_concat_getLast (l := x :: xs) (List.cons_ne_nil _ _)
          rw [hn, List.getLast?_eq_some_getLast (List.cons_ne_nil _ _)] at hl
          rw [Option.some.inj hl] at this
          exact this.symm
      conv => arg 3; rw [ht]
      exact .id (trimmed _)
    | _ => exact key (fun v e => nomatch e) h

theorem parsed {W : World} {content : Any} {subs : List Subs.Sub} {opts : List Opt} {es : List Any} {s : Settings}
    (hs : settle (opts ++ [.subs subs]) = s) (h : parseWith W content subs opts = .ok es) : Parsed W s content es := by
  unfold parseWith at h
  cases h1 : serialize content with
  | error b => rw [h1] at h; cases h
  | ok p =>
    obtain ⟨t, store⟩ := p
    rw [h1] at h
    dsimp only at h
    by_cases ht : t = []
    · rw [if_pos ht] at h; cases h; subst ht; obtain ⟨l, h3, _⟩ := serialized h1; exact .nothing h3
    · rw [if_neg ht, hs] at h
      cases h2 : W.parse s t with
      | none => rw [h2] at h; cases h
      | some es' =>
        rw [h2] at h; cases h
        obtain ⟨l, h3, rfl⟩ := serialized h1
        exact .some h3 ht h2 (filledAll l es')

/-- The settings at a place. -/
def base (exp : Bool) : Settings := ⟨.documentFragment, true, Subs.normal, exp⟩

theorem settle_rule {ctxOpts : List Opt} {exp nested : Bool} {opts : List Opt} (hc : settle ctxOpts = base exp) (ho : optsFor nested opts)
    (e : Entry) (subs : List Subs.Sub) :
    settle (ctxOpts ++ [.entry e] ++ opts ++ [.subs subs]) = ⟨if nested then .normalGroup else e, true, subs, exp⟩ := by
  rw [settle_append, settle_append, settle_append, hc]
  cases nested with
  | false => rw [show opts = [] from ho]; rfl
  | true =>
    obtain ⟨h1, h2⟩ := (show opts ≠ [] ∧ ∀ o ∈ opts, o = .entry .normalGroup from ho)
    have : ∀ (l : List Opt) (s : Settings), (∀ o ∈ l, o = .entry .normalGroup) →
        l.foldl Opt.apply s = if l = [] then s else { s with entry := .normalGroup } := by
      intro l
      induction l with
      | nil => intro s _; rfl
      | cons o l ih =>
        intro s h
        rw [List.foldl_cons, ih _ (fun o ho => h o (List.mem_cons_of_mem _ ho)), h o List.mem_cons_self,
          if_neg (show ¬ (Opt.entry Entry.normalGroup :: l = []) from fun e => nomatch e)]
        cases l <;> rfl
    rw [this opts _ h2, if_neg h1]; rfl

theorem settle_group {ctxOpts : List Opt} {exp nested : Bool} {opts : List Opt} (hc : settle ctxOpts = base exp) (ho : optsFor nested opts)
    (subs : List Subs.Sub) : settle (ctxOpts ++ (opts ++ [.entry .normalGroup]) ++ [.subs subs]) = ⟨.normalGroup, true, subs, exp⟩ := by
  have := settle_rule hc (opts_nested ho) .first subs
  rw [settle_append, settle_append, settle_append, hc] at this
  rw [settle_append, settle_append, hc]
  have e : ∀ (l : List Opt) (s : Settings), ((l ++ [Opt.entry .normalGroup]).foldl Opt.apply (Opt.apply s (.entry .first))) =
      ((l ++ [Opt.entry .normalGroup]).foldl Opt.apply s) := by
    intro l
    induction l with
    | nil => intro s; rfl
    | cons o l ih =>
      intro s
      show (l ++ _).foldl Opt.apply (Opt.apply (Opt.apply s (.entry .first)) o) = (l ++ _).foldl Opt.apply (Opt.apply s o)
      cases o with
      | entry e => rfl
      | macros => exact ih (Opt.apply s .macros)
      | subs x => exact ih (Opt.apply s (.subs x))
      | experimental b => exact ih (Opt.apply s (.experimental b))
  rw [← e opts]
  exact this

theorem formatted {W : World} {ctxOpts : List Opt} {exp nested : Bool} {opts : List Opt} (hc : settle ctxOpts = base exp)
    (ho : optsFor nested opts) {k : String} {v v' : Any} (h : reparseValue W ctxOpts opts k v = .ok v') :
    Formatted W exp nested k v v' := by
  unfold reparseValue at h
  unfold Formatted
  by_cases h1 : k = "title" ∨ k = "xrefLabel"
  · rw [if_pos h1] at h ⊢
    cases hp : parseWith W v (Subs.attributeSubs ++ [.macros]) (ctxOpts ++ [.entry .attributeStructuredValue] ++ opts) with
    | error b => rw [hp] at h; cases h
    | ok es => rw [hp] at h; cases h; exact ⟨es, parsed (settle_rule hc ho _ _) hp, rfl⟩
  rw [if_neg h1] at h ⊢
  by_cases h2 : k = "text"
  · rw [if_pos h2] at h ⊢
    cases hp : parseWith W v Subs.attributeSubs (ctxOpts ++ [.entry .attributeStructuredValue] ++ opts) with
    | error b => rw [hp] at h; cases h
    | ok es => rw [hp] at h; cases h; exact ⟨es, parsed (settle_rule hc ho _ _) hp, rfl⟩
  rw [if_neg h2] at h ⊢
  by_cases h3 : k = "cols"
  · rw [if_pos h3] at h ⊢
    cases hs : plainSerialized v with
    | none => rw [hs] at h; cases h
    | some t =>
      rw [hs] at h
      dsimp only at h
      cases hp : parseWith W (.text t) Subs.attributeSubs (ctxOpts ++ [.entry .tableColumnsAttribute] ++ opts) with
      | error b => rw [hp] at h; cases h
      | ok es => rw [hp] at h; cases h; exact ⟨t, es, rfl, parsed (settle_rule hc ho _ _) hp, rfl⟩
  rw [if_neg h3] at h ⊢
  cases h; rfl

theorem attrs_join {W : World} {get : String → Option Any} {ctxOpts : List Opt} {exp nested : Bool} {opts : List Opt}
    (hc : settle ctxOpts = base exp) (ho : optsFor nested opts) : ∀ {a r : Attrs} {a' : Attrs}, AttrValues W get a r →
      reparseAttrs W ctxOpts opts r = .ok a' → AttrsAfter W get exp nested a a'
  | _, _, a', .nil, h => by unfold reparseAttrs at h; cases h; exact .nil
  | _, _, a', .cons (k := k) (v' := v') (a' := r) hv hr, h => by
    conv at h => lhs; unfold reparseAttrs
    cases h1 : reparseValue W ctxOpts opts k v' with
    | error b => rw [h1] at h; cases h
    | ok u =>
      rw [h1] at h
      dsimp only at h
      cases h2 : reparseAttrs W ctxOpts opts r with
      | error b => rw [h2] at h; cases h
      | ok l => rw [h2] at h; cases h; exact .cons hv (formatted hc ho h1) (attrs_join hc ho hr h2)

theorem attrsAfter {W : World} {c : Walk.Ctx} {exp nested : Bool} {opts : List Opt} (hc : settle c.opts = base exp)
    (ho : optsFor nested opts) {a a' : Attrs} (h : substAttrs W c opts a = .ok a') : AttrsAfter W c.get exp nested a a' := by
  unfold substAttrs at h
  cases h1 : replaceAttrs W c.get a with
  | error b => rw [h1] at h; cases h
  | ok r => rw [h1] at h; exact attrs_join hc ho (attrValues a r h1) h

/-! ### Content -/

theorem element_eq (v : Any) : Walk.elementFor v = element v := by cases v <;> rfl

theorem path {W : World} {get : String → Option Any} : ∀ (es es' : List Any) (cs cs' : AMap CVal) (h : List Occ), Rep cs h →
    replacePath W get cs es = .ok (es', cs') → ∃ o, Path W get h es es' o ∧ Rep cs' (h ++ o)
  | [], es', cs, cs', h, r, hp => by
    unfold replacePath at hp; cases hp; exact ⟨[], .nil, by rwa [List.append_nil]⟩
  | e :: es, es', cs, cs', h, r, hp => by
    have other : ∀ e : Any, (∀ n, e ≠ .ref n) → (∀ n s hid, e ≠ .counter n s hid) →
        (match replacePath W get cs es with
          | Except.error b => Except.error b
          | Except.ok (es, cs) => Except.ok (e :: es, cs) : Except Bad (List Any × AMap CVal)) = .ok (es', cs') →
        ∃ o, Path W get h (e :: es) es' o ∧ Rep cs' (h ++ o) := by
      intro e h1 h2 hp
      cases hq : replacePath W get cs es with
      | error b => rw [hq] at hp; cases hp
      | ok q =>
        obtain ⟨x, y⟩ := q
        rw [hq] at hp; cases hp
        obtain ⟨o, k1, k2⟩ := path es x cs _ h r hq
        exact ⟨o, .other h1 h2 k1, k2⟩
    cases e with
    | ref n =>
      conv at hp => lhs; unfold replacePath
      cases hv : valueForRef W get n with
      | error b => rw [hv] at hp; cases hp
      | ok p =>
        obtain ⟨v, b⟩ := p
        rw [hv] at hp
        dsimp only at hp
        cases hq : replacePath W get cs es with
        | error b => rw [hq] at hp; cases hp
        | ok q =>
          obtain ⟨x, y⟩ := q
          rw [hq] at hp; cases hp
          obtain ⟨o, k1, k2⟩ := path es x cs _ h r hq
          rw [element_eq]
          exact ⟨o, .ref (denotes hv).1 k1, k2⟩
    | counter n s hid =>
      conv at hp => lhs; unfold replacePath
      dsimp only at hp
      obtain ⟨c1, c2⟩ := counter_step r ⟨n, s, hid⟩
      cases hq : replacePath W get (AttrRefs.valueForCounter cs n s hid).1 es with
      | error b => rw [hq] at hp; cases hp
      | ok q =>
        obtain ⟨x, y⟩ := q
        rw [hq] at hp; cases hp
        obtain ⟨o, k1, k2⟩ := path es x _ _ _ c1 hq
        refine ⟨_ :: o, ?_, by rwa [List.append_assoc] at k2⟩
        rw [show (AttrRefs.valueForCounter cs n s hid).2 = shown h ⟨n, s, hid⟩ from c2]
        exact .counter k1
    | _ =>
      unfold replacePath at hp
      exact other _ (fun _ e => nomatch e) (fun _ _ _ e => nomatch e) hp

theorem location {W : World} {get : String → Option Any} {l l' : Option Any} {cs cs' : AMap CVal} {h : List Occ} (r : Rep cs h)
    (hp : replaceLocation W get cs l = .ok (l', cs')) : ∃ o, Location W get h l l' o ∧ Rep cs' (h ++ o) := by
  have other : (∀ es, l ≠ some (.slice es)) → (Except.ok (l, cs) : Except Bad (Option Any × AMap CVal)) = .ok (l', cs') →
      ∃ o, Location W get h l l' o ∧ Rep cs' (h ++ o) := by
    intro h1 h2; cases h2; exact ⟨[], .other h1, by rwa [List.append_nil]⟩
  cases l with
  | none => unfold replaceLocation at hp; exact other (fun _ e => nomatch e) hp
  | some v =>
    cases v with
    | slice es =>
      unfold replaceLocation at hp
      dsimp only at hp
      cases hq : replacePath W get cs es with
      | error b => rw [hq] at hp; cases hp
      | ok q =>
        obtain ⟨x, y⟩ := q
        rw [hq] at hp; cases hp
        obtain ⟨o, k1, k2⟩ := path es x cs _ h r hq
        exact ⟨o, .pieces k1, k2⟩
    | _ => unfold replaceLocation at hp; exact other (fun _ e => nomatch e) hp

theorem again {W : World} {get : String → Option Any} {p2 : Option (List Subs.Sub)} {es mid out : List Any}
    (h : finish W p2 (es.any (isSet get)) mid = .ok out) : Again W get p2 es mid out := by
  unfold finish at h
  unfold Again
  cases p2 with
  | none => cases h; rfl
  | some subs =>
    dsimp only at h ⊢
    cases hs : es.any (isSet get) with
    | false => rw [hs, if_neg (by decide)] at h; cases h; rw [if_neg (by decide)]
    | true => rw [hs, if_pos rfl] at h; rw [if_pos rfl]; exact parsed rfl h

mutual
theorem «inline» {W : World} {get : String → Option Any} {p2 : Option (List Subs.Sub)} : ∀ (e e' : Any) (cs cs' : AMap CVal) (b : Bool)
    (h : List Occ), Rep cs h → replaceOne W get p2 cs e = .ok (e', cs', b) →
    ∃ o, Inline W get p2 h e e' o ∧ Rep cs' (h ++ o) ∧ b = isSet get e
  | .ref n, e', cs, cs', b, h, r, hp => by
    unfold replaceOne at hp
    cases hv : valueForRef W get n with
    | error b => rw [hv] at hp; cases hp
    | ok p =>
      obtain ⟨v, b'⟩ := p
      rw [hv] at hp; cases hp
      rw [element_eq]
      exact ⟨[], .ref (denotes hv).1, by rwa [List.append_nil], (denotes hv).2⟩
  | .counter n s hid, e', cs, cs', b, h, r, hp => by
    unfold replaceOne at hp
    obtain ⟨c1, c2⟩ := counter_step r ⟨n, s, hid⟩
    cases hp
    refine ⟨[⟨n, s, hid⟩], ?_, c1, rfl⟩
    rw [show (AttrRefs.valueForCounter cs n s hid).2 = shown h ⟨n, s, hid⟩ from c2]
    exact .counter
  | .group n a es, e', cs, cs', b, h, r, hp => by
    conv at hp => lhs; unfold replaceOne
    cases h1 : replaceAttrs W get a with
    | error b => rw [h1] at hp; cases hp
    | ok a' =>
      rw [h1] at hp
      dsimp only at hp
      cases h2 : replaceLoop W get p2 cs es with
      | error b => rw [h2] at hp; cases hp
      | ok q =>
        rw [h2] at hp
        dsimp only at hp
        cases h3 : finish W p2 q.replaced q.els with
        | error b => rw [h3] at hp; cases hp
        | ok es' =>
          rw [h3] at hp; cases hp
          obtain ⟨o, k1, k2, k3⟩ := inlines es cs q h r h2
          rw [k3] at h3
          exact ⟨o, .group (attrValues a a' h1) k1 (again h3), k2, rfl⟩
  | .located n a l, e', cs, cs', b, h, r, hp => by
    unfold replaceOne at hp
    cases h1 : replaceAttrs W get a with
    | error b => rw [h1] at hp; cases hp
    | ok a' =>
      rw [h1] at hp
      dsimp only at hp
      cases h2 : replaceLocation W get cs l with
      | error b => rw [h2] at hp; cases hp
      | ok q =>
        obtain ⟨l', cs1⟩ := q
        rw [h2] at hp; cases hp
        obtain ⟨o, k1, k2⟩ := location r h2
        exact ⟨o, .located (attrValues a a' h1) k1, k2, rfl⟩
  | .nil, e', cs, cs', b, h, r, hp | .text _, e', cs, cs', b, h, r, hp | .plain _, e', cs, cs', b, h, r, hp
  | .fullName _ _ _, e', cs, cs', b, h, r, hp | .str _, e', cs, cs', b, h, r, hp | .slice _, e', cs, cs', b, h, r, hp
  | .roles _, e', cs, cs', b, h, r, hp | .options _, e', cs, cs', b, h, r, hp
  | .raw _, e', cs, cs', b, h, r, hp | .special _, e', cs, cs', b, h, r, hp | .dash, e', cs, cs', b, h, r, hp
  | .holder _, e', cs, cs', b, h, r, hp | .anchor _, e', cs, cs', b, h, r, hp | .column _, e', cs, cs', b, h, r, hp
  | .leaf _, e', cs, cs', b, h, r, hp | .closed _ _, e', cs, cs', b, h, r, hp | .passthrough _, e', cs, cs', b, h, r, hp
  | .paragraph _ _, e', cs, cs', b, h, r, hp | .block _ _ _, e', cs, cs', b, h, r, hp | .labeled _ _ _ _, e', cs, cs', b, h, r, hp
  | .continuation _ _, e', cs, cs', b, h, r, hp | .cell _ _, e', cs, cs', b, h, r, hp | .table _ _ _ _, e', cs, cs', b, h, r, hp
  | .section _ _ _, e', cs, cs', b, h, r, hp | .header _ _ _, e', cs, cs', b, h, r, hp | .declare _ _, e', cs, cs', b, h, r, hp
  | .reset _, e', cs, cs', b, h, r, hp | .authors _, e', cs, cs', b, h, r, hp | .revision _ _ _, e', cs, cs', b, h, r, hp
  | .frontMatter _, e', cs, cs', b, h, r, hp => by
    unfold replaceOne at hp; cases hp
    exact ⟨[], .other rfl, by rwa [List.append_nil], rfl⟩
theorem inlines {W : World} {get : String → Option Any} {p2 : Option (List Subs.Sub)} : ∀ (es : List Any) (cs : AMap CVal) (q : Looped)
    (h : List Occ), Rep cs h → replaceLoop W get p2 cs es = .ok q →
    ∃ o, Inlines W get p2 h es q.els o ∧ Rep q.counters (h ++ o) ∧ q.replaced = es.any (isSet get)
  | [], cs, q, h, r, hp => by
    unfold replaceLoop at hp; cases hp; exact ⟨[], .nil, by rwa [List.append_nil], rfl⟩
  | e :: es, cs, q, h, r, hp => by
    conv at hp => lhs; unfold replaceLoop
    cases h1 : replaceOne W get p2 cs e with
    | error b => rw [h1] at hp; cases hp
    | ok p =>
      obtain ⟨e', cs1, b⟩ := p
      rw [h1] at hp
      dsimp only at hp
      cases h2 : replaceLoop W get p2 cs1 es with
      | error b => rw [h2] at hp; cases hp
      | ok q1 =>
        rw [h2] at hp; cases hp
        obtain ⟨o, k1, k2, k3⟩ := «inline» e e' cs cs1 b h r h1
        obtain ⟨o', j1, j2, j3⟩ := inlines es cs1 q1 (h ++ o) k2 h2
        refine ⟨o ++ o', .cons k1 j1, by rwa [List.append_assoc] at j2, ?_⟩
        show (b || q1.replaced) = _
        rw [k3, j3]; rfl
end

theorem split_loop : ∀ (subs : List Subs.Sub) (p : Option (List Subs.Sub)), Subs.splitLoop p subs =
    if .attributes ∈ subs.dropLast then
      some ((subs.dropLast.reverse.takeWhile (· != .attributes)).reverse ++ subs.getLast?.toList)
    else p
  | [], p => rfl
  | [s], p => by simp [Subs.splitLoop]
  | s :: t :: r, p => by
    unfold Subs.splitLoop
    rw [split_loop (t :: r)]
    have e1 : (s :: t :: r).dropLast = s :: (t :: r).dropLast := rfl
    have e2 : (s :: t :: r).getLast? = (t :: r).getLast? := by simp [List.getLast?_cons_cons]
    rw [e1, e2, List.reverse_cons]
    by_cases hm : Subs.Sub.attributes ∈ (t :: r).dropLast
    · rw [if_pos hm, if_pos (List.mem_cons_of_mem _ hm)]
      have : ∀ (l l' : List Subs.Sub), Subs.Sub.attributes ∈ l → (l ++ l').takeWhile (· != .attributes) = l.takeWhile (· != .attributes) := by
        intro l l'
        induction l with
        | nil => intro h; cases h
        | cons x l ih =>
          intro h
          rw [List.cons_append, List.takeWhile_cons, List.takeWhile_cons]
          by_cases hx : x = .attributes
          · subst hx; rfl
          · rw [if_pos (by simpa using hx), if_pos (by simpa using hx), ih ((List.mem_cons.1 h).resolve_left (fun e => hx e.symm))]
      rw [this _ _ (List.mem_reverse.2 hm)]
    · rw [if_neg hm]
      have all : ∀ x ∈ (t :: r).dropLast.reverse, (x != Subs.Sub.attributes) = true := by
        intro x hx
        rw [bne_iff_ne]
        intro e; subst e; exact hm (List.mem_reverse.1 hx)
      by_cases hs : s = .attributes
      · subst hs
        rw [if_pos ⟨rfl, by simp⟩, if_pos List.mem_cons_self, List.takeWhile_append_of_pos all]
        have : List.takeWhile (fun x => x != Subs.Sub.attributes) [Subs.Sub.attributes] = [] := by decide
        rw [this, List.append_nil, List.reverse_reverse]
        congr 1
        rw [List.getLast?_eq_some_getLast (by simp : t :: r ≠ [])]
        exact (List.dropLast_concat_getLast (by simp)).symm
      · rw [if_neg (by simp [hs]), if_neg (by simp [hm, Ne.symm hs])]

theorem split_later (subs : List Subs.Sub) : Subs.split subs = later subs := split_loop subs none

theorem replaced {W : World} {get : String → Option Any} {subs : List Subs.Sub} {cs cs' : AMap CVal} {es es' : List Any} {h : List Occ}
    (r : Rep cs h) (hp : replaceAndReparse W get (Subs.split subs) cs es = .ok (es', cs')) :
    ∃ o, Replaced W get subs h es es' o ∧ Rep cs' (h ++ o) := by
  unfold replaceAndReparse at hp
  cases h1 : replaceLoop W get (Subs.split subs) cs es with
  | error b => rw [h1] at hp; cases hp
  | ok q =>
    rw [h1] at hp
    dsimp only at hp
    cases h2 : finish W (Subs.split subs) q.replaced q.els with
    | error b => rw [h2] at hp; cases hp
    | ok out =>
      rw [h2] at hp; cases hp
      obtain ⟨o, k1, k2, k3⟩ := inlines es cs q h r h1
      rw [k3] at h2
      rw [split_later] at k1 h2
      exact ⟨o, ⟨_, k1, again h2⟩, k2⟩

theorem contentAfter {W : World} {c : Walk.Ctx} {exp nested : Bool} {opts : List Opt} (hc : settle c.opts = base exp)
    (ho : optsFor nested opts) {subs : List Subs.Sub} {es es' : List Any} {cs' : AMap CVal} {h : List Occ} (r : Rep c.counters h)
    (hp : substSlice W c subs (opts ++ [.entry .normalGroup]) es = .ok (es', cs')) :
    ∃ o, ContentAfter W c.get exp subs h es es' o ∧ Rep cs' (h ++ o) := by
  unfold substSlice at hp
  unfold ContentAfter
  cases es with
  | nil => cases hp; exact ⟨[], by rw [if_pos rfl]; exact ⟨rfl, rfl⟩, by rwa [List.append_nil]⟩
  | cons e es =>
    rw [if_neg (by simp)] at hp
    cases h1 : parseWith W (.slice (e :: es)) subs (c.opts ++ (opts ++ [.entry .normalGroup])) with
    | error b => rw [h1] at hp; cases hp
    | ok mid =>
      rw [h1] at hp
      dsimp only at hp
      have hm := parsed (settle_group hc ho subs) h1
      by_cases ha : Subs.Sub.attributes ∈ subs
      · rw [if_pos ha] at hp
        obtain ⟨o, k1, k2⟩ := replaced r hp
        exact ⟨o, by rw [if_neg (by simp)]; exact ⟨mid, hm, by rw [if_pos ha]; exact k1⟩, k2⟩
      · rw [if_neg ha] at hp
        cases hp
        exact ⟨[], by rw [if_neg (by simp)]; exact ⟨_, hm, by rw [if_neg ha]; exact ⟨rfl, rfl⟩⟩, by rwa [List.append_nil]⟩

/-! ### Inline attributes -/

theorem inline_settings {ctxOpts : List Opt} {exp nested : Bool} {opts : List Opt} (hc : settle ctxOpts = base exp) (ho : optsFor nested opts)
    (subs : List Subs.Sub) :
    settle (ctxOpts ++ (opts ++ [.entry .normalGroup]) ++ [.entry .attributeStructuredValue] ++ [.subs subs]) =
      ⟨.attributeStructuredValue, true, subs, exp⟩ := by
  have := settle_group hc ho subs
  rw [settle_append] at this
  rw [settle_append, settle_append]
  generalize settle (ctxOpts ++ (opts ++ [.entry .normalGroup])) = s at *
  obtain ⟨e, m, u, x⟩ := s
  have this : (⟨e, m, subs, x⟩ : Settings) = ⟨.normalGroup, true, subs, exp⟩ := this
  cases this; rfl

theorem removeAll_macros (s : List Subs.Sub) : Subs.removeAll s [.macros] = s.filter (· != .macros) := by
  show s.filter (fun x => decide (x ≠ .macros)) = _
  congr 1
  funext x
  cases x <;> rfl

theorem inlineAttrs_spec {W : World} {ctxOpts : List Opt} {exp nested : Bool} {opts : List Opt} (hc : settle ctxOpts = base exp)
    (ho : optsFor nested opts) : ∀ (a : Attrs) (s : List Subs.Sub) (r : Inlined Attrs),
      inlineAttrs W ctxOpts (opts ++ [.entry .normalGroup]) s a = .ok r → InlineAttrs W exp s a r.val r.subs
  | [], s, r, h => by unfold inlineAttrs at h; cases h; exact .nil
  | (k, v) :: a, s, r, h => by
    conv at h => lhs; unfold inlineAttrs
    by_cases h1 : k = "title" ∨ k = "xrefLabel"
    · rw [if_pos h1] at h
      cases h2 : parseWith W v s (ctxOpts ++ (opts ++ [.entry .normalGroup]) ++ [.entry .attributeStructuredValue]) with
      | error b => rw [h2] at h; cases h
      | ok es =>
        rw [h2] at h
        dsimp only at h
        cases h3 : inlineAttrs W ctxOpts (opts ++ [.entry .normalGroup]) s a with
        | error b => rw [h3] at h; cases h
        | ok q => rw [h3] at h; cases h; exact .title h1 (parsed (inline_settings hc ho s) h2) (inlineAttrs_spec hc ho a s q h3)
    rw [if_neg h1] at h
    by_cases h1' : k = "text"
    · rw [if_pos h1'] at h
      subst h1'
      rw [removeAll_macros] at h
      cases h2 : parseWith W v (s.filter (· != .macros)) (ctxOpts ++ (opts ++ [.entry .normalGroup]) ++ [.entry .attributeStructuredValue]) with
      | error b => rw [h2] at h; cases h
      | ok es =>
        rw [h2] at h
        dsimp only at h
        cases h3 : inlineAttrs W ctxOpts (opts ++ [.entry .normalGroup]) (s.filter (· != .macros)) a with
        | error b => rw [h3] at h; cases h
        | ok q => rw [h3] at h; cases h; exact .text (parsed (inline_settings hc ho _) h2) (inlineAttrs_spec hc ho a _ q h3)
    rw [if_neg h1'] at h
    cases h3 : inlineAttrs W ctxOpts (opts ++ [.entry .normalGroup]) s a with
    | error b => rw [h3] at h; cases h
    | ok q =>
      rw [h3] at h; cases h
      exact .other (fun e => h1 (.inl e)) (fun e => h1 (.inr e)) h1' (inlineAttrs_spec hc ho a s q h3)

mutual
theorem once {W : World} {ctxOpts : List Opt} {exp nested : Bool} {opts : List Opt} (hc : settle ctxOpts = base exp)
    (ho : optsFor nested opts) : ∀ (e : Any) (s : List Subs.Sub) (r : Inlined Any),
      inlineOne W ctxOpts (opts ++ [.entry .normalGroup]) s e = .ok r → Once W exp s e r.val r.subs
  | .group n a es, s, r, h => by
    conv at h => lhs; unfold inlineOne
    cases h1 : inlineAttrs W ctxOpts (opts ++ [.entry .normalGroup]) s a with
    | error b => rw [h1] at h; cases h
    | ok q =>
      rw [h1] at h
      dsimp only at h
      cases h2 : inlineAll W ctxOpts (opts ++ [.entry .normalGroup]) q.subs es with
      | error b => rw [h2] at h; cases h
      | ok q2 => rw [h2] at h; cases h; exact .group (inlineAttrs_spec hc ho a s q h1) (onces hc ho es q.subs q2 h2)
  | .located n a l, s, r, h => by
    unfold inlineOne at h
    cases h1 : inlineAttrs W ctxOpts (opts ++ [.entry .normalGroup]) s a with
    | error b => rw [h1] at h; cases h
    | ok q => rw [h1] at h; cases h; exact .located (inlineAttrs_spec hc ho a s q h1)
  | .nil, s, r, h | .text _, s, r, h | .plain _, s, r, h | .fullName _ _ _, s, r, h | .str _, s, r, h | .slice _, s, r, h
  | .ref _, s, r, h | .counter _ _ _, s, r, h
  | .roles _, s, r, h | .options _, s, r, h | .raw _, s, r, h | .special _, s, r, h | .dash, s, r, h | .holder _, s, r, h
  | .anchor _, s, r, h | .column _, s, r, h | .leaf _, s, r, h | .closed _ _, s, r, h | .passthrough _, s, r, h
  | .paragraph _ _, s, r, h | .block _ _ _, s, r, h | .labeled _ _ _ _, s, r, h | .continuation _ _, s, r, h | .cell _ _, s, r, h
  | .table _ _ _ _, s, r, h | .section _ _ _, s, r, h | .header _ _ _, s, r, h | .declare _ _, s, r, h | .reset _, s, r, h
  | .authors _, s, r, h | .revision _ _ _, s, r, h | .frontMatter _, s, r, h => by
    unfold inlineOne at h; cases h; exact .other rfl
theorem onces {W : World} {ctxOpts : List Opt} {exp nested : Bool} {opts : List Opt} (hc : settle ctxOpts = base exp)
    (ho : optsFor nested opts) : ∀ (es : List Any) (s : List Subs.Sub) (r : Inlined (List Any)),
      inlineAll W ctxOpts (opts ++ [.entry .normalGroup]) s es = .ok r → Onces W exp s es r.val r.subs
  | [], s, r, h => by unfold inlineAll at h; cases h; exact .nil
  | e :: es, s, r, h => by
    conv at h => lhs; unfold inlineAll
    cases h1 : inlineOne W ctxOpts (opts ++ [.entry .normalGroup]) s e with
    | error b => rw [h1] at h; cases h
    | ok q =>
      rw [h1] at h
      dsimp only at h
      cases h2 : inlineAll W ctxOpts (opts ++ [.entry .normalGroup]) q.subs es with
      | error b => rw [h2] at h; cases h
      | ok q2 => rw [h2] at h; cases h; exact .cons (once hc ho e s q h1) (onces hc ho es q.subs q2 h2)
end

/-! ### Places -/

theorem after {W : World} {api : AMap Any} {done : List Site} {c : Walk.Ctx} {cs' : AMap CVal} {h : List Occ} {s : Site}
    (hc : contextAt api done c.counters c) (r : Rep c.counters h) (hs : s.Holds W c cs') :
    ∃ o, s.After W (valueAt api done) (experimentalAt done) h o ∧ Rep cs' (h ++ o) := by
  have hb : settle c.opts = base (experimentalAt done) := settle_ctx hc
  have hg : c.get = valueAt api done := funext hc.2.1
  rw [← hg]
  have none' : ∀ {P : List Occ → Prop}, P [] → cs' = c.counters → ∃ o, P o ∧ Rep cs' (h ++ o) := by
    intro P hp e; exact ⟨[], hp, by rw [e, List.append_nil]; exact r⟩
  cases s with
  | front a => exact none' rfl hs
  | declare n v v' => exact none' ⟨value v v' hs.1, rfl⟩ hs.2
  | reset n => exact none' rfl hs
  | info es => exact none' rfl hs.2
  | heading a a' t t' =>
    obtain ⟨h1, h2⟩ := hs
    obtain ⟨o, k1, k2⟩ := replaced r h2
    exact ⟨o, ⟨attrsAfter hb opts_top h1, k1⟩, k2⟩
  | «section» a a' t t' =>
    obtain ⟨a1, t1, h1, h2, h3⟩ := hs
    obtain ⟨o, k1, k2⟩ := replaced r h2
    exact ⟨o, ⟨a1, t1, attrsAfter hb opts_top h1, k1, titleSet h3⟩, k2⟩
  | attrs nested b a a' =>
    obtain ⟨⟨opts, ho, h1⟩, h2, h3⟩ := hs
    exact none' ⟨attrsAfter hb ho h1, h2, rfl⟩ h3
  | paragraph nested a a' es es' =>
    obtain ⟨opts, ho, c', h1, h2⟩ := hs
    unfold substParagraph at h1
    cases g1 : substAttrs W c opts a with
    | error b => rw [g1] at h1; cases h1
    | ok a1 =>
      rw [g1] at h1
      dsimp only at h1
      cases g2 : subsFor (paragraphOf (getTextD W a1 "style")) a1 with
      | error b => rw [g2] at h1; cases h1
      | ok subs =>
        rw [g2] at h1
        dsimp only at h1
        cases g3 : substSlice W c subs (opts ++ [.entry .normalGroup]) es with
        | error b => rw [g3] at h1; cases h1
        | ok q =>
          obtain ⟨mid, cs1⟩ := q
          rw [g3] at h1
          dsimp only at h1
          cases g4 : inlineAll W c.opts (opts ++ [.entry .normalGroup]) subs mid with
          | error b => rw [g4] at h1; cases h1
          | ok q =>
            rw [g4] at h1; cases h1
            obtain ⟨o, k1, k2⟩ := contentAfter hb ho r g3
            subst h2
            exact ⟨o, ⟨attrsAfter hb ho g1, subs, mid, q.subs, g2, k1, onces hb ho mid subs q g4⟩, k2⟩
  | verbatim nested k a a' es es' =>
    obtain ⟨opts, a1, subs, ho, h1, h2, c', h3, h4⟩ := hs
    unfold substVerbatim at h3
    dsimp only at h3
    have main : ∀ (l : List Any) (a2 : Attrs), (match substSlice W c subs (opts ++ [.entry .normalGroup]) l with
        | Except.error b => Except.error b
        | Except.ok (es, cs) => Except.ok (.block k a2 es, { c with counters := cs }) : Except Bad (Any × Walk.Ctx)) = .ok (.block k a' es', c') →
        a' = a2 ∧ ∃ o, ContentAfter W c.get (experimentalAt done) subs h l es' o ∧ Rep cs' (h ++ o) := by
      intro l a2 hm
      cases g3 : substSlice W c subs (opts ++ [.entry .normalGroup]) l with
      | error b => rw [g3] at hm; cases hm
      | ok q =>
        obtain ⟨mid, cs1⟩ := q
        rw [g3] at hm; cases hm
        subst h4
        exact ⟨rfl, contentAfter hb ho r g3⟩
    by_cases hk : k = .markdownQuote
    · rw [if_pos hk] at h3
      by_cases ht : (splitAttribution W es).2 = []
      · rw [if_pos ht] at h3
        obtain ⟨e, o, k1, k2⟩ := main _ _ h3
        refine ⟨o, ⟨a1, subs, attrsAfter hb ho h1, h2, ?_⟩, k2⟩
        rw [if_neg (fun x => x.2 ht), if_pos hk]
        exact ⟨e, k1⟩
      · rw [if_neg ht] at h3
        obtain ⟨e, o, k1, k2⟩ := main _ _ h3
        refine ⟨o, ⟨a1, subs, attrsAfter hb ho h1, h2, ?_⟩, k2⟩
        rw [if_pos ⟨hk, ht⟩]
        exact ⟨e, k1⟩
    · rw [if_neg hk] at h3
      dsimp only at h3
      rw [if_pos rfl] at h3
      obtain ⟨e, o, k1, k2⟩ := main _ _ h3
      refine ⟨o, ⟨a1, subs, attrsAfter hb ho h1, h2, ?_⟩, k2⟩
      rw [if_neg (fun x => hk x.1), if_neg hk]
      exact ⟨e, k1⟩
  | term nested a a' t t' =>
    obtain ⟨opts, subs, ho, h1, h2, h3⟩ := hs
    obtain ⟨o, k1, k2⟩ := contentAfter hb ho r h3
    exact ⟨o, ⟨attrsAfter hb ho h1, subs, h2, k1⟩, k2⟩
  | located nested n a a' l l' =>
    obtain ⟨opts, ho, c', h1, h2⟩ := hs
    unfold substLocated at h1
    cases g1 : substAttrs W c opts a with
    | error b => rw [g1] at h1; cases h1
    | ok a1 =>
      rw [g1] at h1
      dsimp only at h1
      cases g2 : replaceLocation W c.get c.counters l with
      | error b => rw [g2] at h1; cases h1
      | ok q =>
        obtain ⟨l1, cs1⟩ := q
        rw [g2] at h1; cases h1
        subst h2
        obtain ⟨o, k1, k2⟩ := location r g2
        exact ⟨o, ⟨attrsAfter hb ho g1, k1⟩, k2⟩

theorem followed {W : World} {api : AMap Any} : ∀ (l done : List Site) (cs cs' : AMap CVal) (h : List Occ), Rep cs h →
    InOrder W api done cs cs' l → Followed W api done h l
  | [], _, _, _, _, _, _ => trivial
  | s :: ss, done, cs, cs', h, r, hi => by
    obtain ⟨c, cs1, hc, hs, hi'⟩ := hi
    have e : c.counters = cs := hc.2.2.2
    subst e
    obtain ⟨o, k1, k2⟩ := after hc r hs
    exact ⟨o, k1, followed ss _ cs1 cs' _ k2 hi'⟩

end Verif.C23.Doc
