import Verif.Model.Attributes
import Verif.Props.Ids

/-!
C33 — Attribute merging: roles accumulate in order, every other key keeps its last value, whatever the
iteration order of the maps; the exact meaning of `options`, which are not always cumulative (findings).
C42 — Positional attributes are given their names, whatever the iteration order of the mapping table.
-/
namespace Verif
namespace C33
open EAttrs

/-! ### Specification -/

/-- The roles read by the renderer (element_role.go:11). -/
def roles (a : Attrs) : List AVal := (asRoles (AMap.get a "roles")).getD []

/-- The options read by `HasOption`. -/
def options (a : Attrs) : List AVal := (asOptions (AMap.get a "options")).getD []

/-- The roles given by one entry. -/
def entryRoles : String × AVal → List AVal
  | ("role", v) => [v]
  | ("roles", .roles r) => r
  | _ => []

/-- The option given by one shorthand entry (`%option`). -/
def entryOption (p : String × AVal) : List AVal := if p.1 = "option" then [p.2] else []

/-- The last value given to a key. -/
def lastValue (k : String) (es : List (String × AVal)) : Option AVal :=
  (es.filterMap (fun p => if p.1 = k then some p.2 else none)).getLast?

/-- The entries of a list of items, positional ones being numbered from `n + 1`. -/
def entries : Nat → List Item → List (String × AVal)
  | _, [] => []
  | n, .pos v :: t => (posKey (n + 1), v) :: entries (n + 1) t
  | n, .named k v :: t => (if k = "opts" then "options" else k, v) :: entries n t

/-- A key with no special meaning. -/
def Plain (k : String) : Prop := k ≠ "role" ∧ k ≠ "roles" ∧ k ≠ "option" ∧ k ≠ "options"

/-! ### One entry -/

theorem entryRoles_eq (k : String) (v : AVal) : entryRoles (k, v) =
    if k = "role" then [v] else if k = "roles" then (asRoles (some v)).getD [] else [] := by
  unfold entryRoles
  split
  · rename_i h; cases h; rfl
  · rename_i h; cases h; rfl
  · rename_i h1 h2
    rw [if_neg (fun h => h1 v (by rw [h]))]
    split
    · rename_i h
      cases v <;> first | rfl | exact absurd (by rw [h]) (h2 _)
    · rfl

theorem roles_setRole (a : Attrs) (v : AVal) : roles (setRole a v) = roles a ++ [v] := by
  unfold setRole roles
  cases h : asRoles (AMap.get a "roles") <;> simp [asRoles]

theorem roles_setRoles (a : Attrs) (r : List AVal) : roles (setRoles a r) = roles a ++ r := by
  unfold setRoles roles
  cases h : asRoles (AMap.get a "roles") <;> simp [asRoles]

theorem options_setOption (a : Attrs) (v : AVal) : options (setOption a v) = options a ++ [v] := by
  unfold setOption options
  cases h : asOptions (AMap.get a "options") <;> simp [asOptions]

theorem get_setRole (a : Attrs) (v : AVal) {k : String} (h : k ≠ "roles") :
    AMap.get (setRole a v) k = AMap.get a k := by
  unfold setRole; split <;> exact AMap.get_set_ne _ _ h

theorem get_setRoles (a : Attrs) (r : List AVal) {k : String} (h : k ≠ "roles") :
    AMap.get (setRoles a r) k = AMap.get a k := by
  unfold setRoles; split <;> exact AMap.get_set_ne _ _ h

theorem get_setOption (a : Attrs) (v : AVal) {k : String} (h : k ≠ "options") :
    AMap.get (setOption a v) k = AMap.get a k := by
  unfold setOption; split <;> exact AMap.get_set_ne _ _ h

theorem set_roles_key (a : Attrs) (v : AVal) :
    set a "roles" v = match v with | .roles r => setRoles a r | _ => a := by
  unfold EAttrs.set; rw [if_neg (by decide), if_pos rfl]; cases v <;> rfl

theorem set_role_key (a : Attrs) (v : AVal) : set a "role" v = setRole a v := by
  unfold EAttrs.set; rw [if_pos rfl]

theorem set_option_key (a : Attrs) (v : AVal) : set a "option" v = setOption a v := by
  unfold EAttrs.set; rw [if_neg (by decide), if_neg (by decide), if_pos rfl]

theorem set_options_key (a : Attrs) (v : AVal) :
    set a "options" v = AMap.set a "options" (.options (toOptions v)) := by
  unfold EAttrs.set; rw [if_neg (by decide), if_neg (by decide), if_neg (by decide), if_pos rfl]

theorem set_plain (a : Attrs) (v : AVal) {k : String} (h : Plain k) : set a k v = AMap.set a k v := by
  unfold EAttrs.set; rw [if_neg h.1, if_neg h.2.1, if_neg h.2.2.1, if_neg h.2.2.2]

theorem plain_or (k : String) : Plain k ∨ k = "role" ∨ k = "roles" ∨ k = "option" ∨ k = "options" := by
  unfold Plain
  by_cases h1 : k = "role" <;> by_cases h2 : k = "roles" <;> by_cases h3 : k = "option" <;>
    by_cases h4 : k = "options" <;> simp [*]

theorem roles_set (a : Attrs) (k : String) (v : AVal) :
    roles (set a k v) = roles a ++ entryRoles (k, v) := by
  rw [entryRoles_eq]
  rcases plain_or k with h | h | h | h | h
  · rw [set_plain a v h, if_neg h.1, if_neg h.2.1]
    unfold roles; rw [AMap.get_set_ne _ _ h.2.1.symm]; simp
  · subst h; rw [set_role_key, roles_setRole]; rfl
  · subst h; rw [set_roles_key, if_neg (by decide), if_pos rfl]
    cases v with
    | roles r => exact roles_setRoles a r
    | _ => simp [asRoles]
  · subst h
    rw [set_option_key, if_neg (by decide), if_neg (by decide)]
    unfold roles; rw [get_setOption _ _ (by decide)]; simp
  · subst h
    rw [set_options_key, if_neg (by decide), if_neg (by decide)]
    unfold roles; rw [AMap.get_set_ne _ _ (by decide)]; simp

theorem options_set_ne (a : Attrs) (k : String) (v : AVal) (h : k ≠ "options") :
    options (set a k v) = options a ++ entryOption (k, v) := by
  unfold entryOption
  rcases plain_or k with hp | hp | hp | hp | hp
  · rw [set_plain a v hp, if_neg hp.2.2.1]
    unfold options; rw [AMap.get_set_ne _ _ h.symm]; simp
  · subst hp; rw [set_role_key, if_neg (fun e => absurd (show ("role" : String) = "option" from e) (by decide))]
    unfold options; rw [get_setRole _ _ (by decide)]; simp
  · subst hp; rw [set_roles_key, if_neg (fun e => absurd (show ("roles" : String) = "option" from e) (by decide)), List.append_nil]
    cases v <;> try rfl
    unfold options; rw [get_setRoles _ _ (by decide)]
  · subst hp; rw [set_option_key, options_setOption]; rfl
  · exact absurd hp h

theorem get_set_plain (a : Attrs) (k k' : String) (v : AVal) (h : Plain k') :
    AMap.get (set a k v) k' = if k = k' then some v else AMap.get a k' := by
  rcases plain_or k with hp | hp | hp | hp | hp
  · rw [set_plain a v hp, AMap.get_set]
    by_cases e : k = k'
    · rw [if_pos e, if_pos e.symm]
    · rw [if_neg e, if_neg (fun h => e h.symm)]
  · subst hp; rw [set_role_key, if_neg (fun e => h.1 e.symm), get_setRole _ _ h.2.1]
  · subst hp; rw [set_roles_key, if_neg (fun e => h.2.1 e.symm)]
    cases v <;> try rfl
    exact get_setRoles _ _ h.2.1
  · subst hp; rw [set_option_key, if_neg (fun e => h.2.2.1 e.symm), get_setOption _ _ h.2.2.2]
  · subst hp; rw [set_options_key, if_neg (fun e => h.2.2.2 e.symm), AMap.get_set_ne _ _ h.2.2.2]

/-! ### Sequences of entries -/

/-- Setting the entries one after the other. -/
def setEntries (a : Attrs) (es : List (String × AVal)) : Attrs := es.foldl (fun m p => set m p.1 p.2) a

theorem roles_entries (es : List (String × AVal)) (a : Attrs) :
    roles (setEntries a es) = roles a ++ es.flatMap entryRoles := by
  induction es generalizing a with
  | nil => simp [setEntries]
  | cons p es ih =>
    show roles (setEntries (set a p.1 p.2) es) = _
    rw [ih, roles_set, List.flatMap_cons, List.append_assoc]

theorem options_entries (es : List (String × AVal)) (a : Attrs) (h : ∀ p ∈ es, p.1 ≠ "options") :
    options (setEntries a es) = options a ++ es.flatMap entryOption := by
  induction es generalizing a with
  | nil => simp [setEntries]
  | cons p es ih =>
    show options (setEntries (set a p.1 p.2) es) = _
    rw [ih _ (fun q hq => h q (List.mem_cons_of_mem _ hq)),
      options_set_ne _ _ _ (h p (List.mem_cons_self ..)), List.flatMap_cons, List.append_assoc]

theorem setEntries_append (a : Attrs) (x y : List (String × AVal)) :
    setEntries a (x ++ y) = setEntries (setEntries a x) y := List.foldl_append ..

theorem lastValue_cons (k : String) (p : String × AVal) (es : List (String × AVal)) :
    lastValue k (p :: es) = (lastValue k es).or (if p.1 = k then some p.2 else none) := by
  unfold lastValue
  rw [List.filterMap_cons]
  split
  · rename_i h
    rw [h, Option.or_none]
  · rename_i v h
    rw [h, List.getLast?_cons]
    cases (List.filterMap (fun p => if p.1 = k then some p.2 else none) es).getLast? <;> rfl

theorem get_entries (es : List (String × AVal)) (a : Attrs) (k : String) (h : Plain k) :
    AMap.get (setEntries a es) k = (lastValue k es).or (AMap.get a k) := by
  induction es generalizing a with
  | nil => rfl
  | cons p es ih =>
    show AMap.get (setEntries (set a p.1 p.2) es) k = _
    rw [ih, lastValue_cons, get_set_plain _ _ _ _ h, Option.or_assoc]
    congr 1
    split <;> rfl

theorem newLoop_eq (l : List Item) (a : Attrs) (n : Nat) :
    newLoop a n l = setEntries a (entries n l) := by
  induction l generalizing a n with
  | nil => rfl
  | cons i l ih => cases i <;> exact ih _ _

/-! ### One group of attributes -/

/-- **C33** — the roles of a group are all its role entries, in order. -/
theorem group_roles (l : List Item) :
    roles (newAttributes l) = (entries 0 l).flatMap entryRoles := by
  unfold newAttributes
  rw [newLoop_eq, roles_entries]
  rfl

/-- **C33** — every other key has the last value given to it. -/
theorem group_last_wins (l : List Item) (k : String) (h : Plain k) :
    AMap.get (newAttributes l) k = lastValue k (entries 0 l) := by
  unfold newAttributes
  rw [newLoop_eq, get_entries _ _ _ h]
  simp

/-- **C33** — without an `options`/`opts` entry, the options of a group are all its `%option` entries, in
order. -/
theorem group_options (l : List Item) (h : ∀ p ∈ entries 0 l, p.1 ≠ "options") :
    options (newAttributes l) = (entries 0 l).flatMap entryOption := by
  unfold newAttributes
  rw [newLoop_eq, options_entries _ _ h]
  rfl

/-- **C33** — otherwise they are those of the last `options`/`opts` entry, followed by the `%option`
entries after it. -/
theorem group_options_replaced (l : List Item) (pre post : List (String × AVal)) (v : AVal)
    (e : entries 0 l = pre ++ ("options", v) :: post) (h : ∀ p ∈ post, p.1 ≠ "options") :
    options (newAttributes l) = toOptions v ++ post.flatMap entryOption := by
  unfold newAttributes
  rw [newLoop_eq, e, setEntries_append]
  show options (setEntries (set (setEntries [] pre) "options" v) post) = _
  rw [options_entries _ _ h, set_options_key]
  unfold options
  rw [AMap.get_set_self]
  rfl

theorem splitComma_ne : ∀ s, Subs.splitComma s ≠ []
  | [] => by simp [Subs.splitComma]
  | c :: t => by
    unfold Subs.splitComma
    split
    · simp
    · split <;> simp

/-- **C33** — the options of a text are its parts between commas: joined with commas they give the text
back, and none contains a comma. -/
theorem option_texts (s : Text) : ∃ parts : List Text, toOptions (.str s) = parts.map .str ∧ parts ≠ [] ∧
    [','].intercalate parts = s ∧ ∀ p ∈ parts, ',' ∉ p := by
  refine ⟨Subs.splitComma s, rfl, splitComma_ne s, ?_, ?_⟩
  · induction s with
    | nil => rfl
    | cons c t ih =>
      unfold Subs.splitComma
      split
      · rename_i h
        cases hs : Subs.splitComma t with
        | nil => exact absurd hs (splitComma_ne t)
        | cons l ls =>
          rw [hs] at ih
          rw [List.intercalate_cons_cons, ih, h]; rfl
      · cases hs : Subs.splitComma t with
        | nil => exact absurd hs (splitComma_ne t)
        | cons l ls =>
          rw [hs] at ih
          dsimp only
          cases ls with
          | nil => rw [List.intercalate_singleton] at ih ⊢; rw [ih]
          | cons l' ls => rw [List.intercalate_cons_cons] at ih ⊢; rw [← ih]; rfl
  · induction s with
    | nil => intro p hp; simp [Subs.splitComma] at hp; simp [hp]
    | cons c t ih =>
      intro p hp
      unfold Subs.splitComma at hp
      split at hp
      · rcases List.mem_cons.1 hp with e | hp
        · simp [e]
        · exact ih p hp
      · rename_i h
        cases hs : Subs.splitComma t with
        | nil => exact absurd hs (splitComma_ne t)
        | cons l ls =>
          rw [hs] at hp ih
          dsimp only at hp
          rcases List.mem_cons.1 hp with e | hp
          · rw [e, List.mem_cons, not_or]
            exact ⟨fun e => h e.symm, ih l (List.mem_cons_self ..)⟩
          · exact ih p (List.mem_cons_of_mem _ hp)

theorem posKey_eq (n : Nat) : (posKey n).toList = "@positional-".toList ++ itoa n := by
  unfold posKey
  rw [String.toList_append]
  congr 1
  exact String.toList_ofList

theorem posKey_inj {m n : Nat} (h : posKey m = posKey n) : m = n := by
  have := congrArg String.toList h
  rw [posKey_eq, posKey_eq] at this
  exact C14.itoa_inj _ _ (List.append_cancel_left this)

theorem posKey_ne (n : Nat) {k : String} (h : k.toList.head? ≠ some '@') : posKey n ≠ k := by
  intro e
  have := congrArg String.toList e
  rw [posKey_eq] at this
  rw [← this] at h
  exact h rfl

theorem posKey_plain (n : Nat) : Plain (posKey n) :=
  ⟨posKey_ne n (by decide), posKey_ne n (by decide), posKey_ne n (by decide), posKey_ne n (by decide)⟩

/-- The positional values of a group, in order. -/
def positionals (l : List Item) : List AVal :=
  l.filterMap (fun i => match i with | .pos v => some v | .named _ _ => none)

theorem lastValue_pos (l : List Item) (h : ∀ k v, Item.named k v ∈ l → k.toList.head? ≠ some '@') :
    ∀ n i, lastValue (posKey (n + i + 1)) (entries n l) = (positionals l)[i]? := by
  induction l with
  | nil => intro n i; rfl
  | cons x l ih =>
    have ih := ih (fun k v hm => h k v (List.mem_cons_of_mem _ hm))
    intro n i
    cases x with
    | named k v =>
      show lastValue _ ((if k = "opts" then "options" else k, v) :: entries n l) = (positionals l)[i]?
      rw [lastValue_cons, ih n i, if_neg, Option.or_none]
      intro e
      dsimp only at e
      split at e
      · exact posKey_ne _ (by decide) e.symm
      · exact posKey_ne _ (h k v (List.mem_cons_self ..)) e.symm
    | pos v =>
      show lastValue _ ((posKey (n + 1), v) :: entries (n + 1) l) = (v :: positionals l)[i]?
      rw [lastValue_cons]
      cases i with
      | zero =>
        rw [if_pos rfl]
        have hno : lastValue (posKey (n + 0 + 1)) (entries (n + 1) l) = none := by
          clear ih
          have : ∀ (l : List Item) (m : Nat), n < m →
              (∀ k v, Item.named k v ∈ l → k.toList.head? ≠ some '@') →
              lastValue (posKey (n + 1)) (entries m l) = none := by
            intro l
            induction l with
            | nil => intros; rfl
            | cons x l ih =>
              intro m hm hk
              have hk' := fun k v hmem => hk k v (List.mem_cons_of_mem _ hmem)
              cases x with
              | pos w =>
                show lastValue _ ((posKey (m + 1), w) :: entries (m + 1) l) = none
                rw [lastValue_cons, ih _ (by omega) hk', if_neg]
                · rfl
                · intro e; have := posKey_inj e; omega
              | named k w =>
                show lastValue _ ((if k = "opts" then "options" else k, w) :: entries m l) = none
                rw [lastValue_cons, ih _ hm hk', if_neg]
                · rfl
                · intro e
                  dsimp only at e
                  split at e
                  · exact posKey_ne _ (by decide) e.symm
                  · exact posKey_ne _ (hk k w (List.mem_cons_self ..)) e.symm
          exact this l (n + 1) (by omega) (fun k v hm => h k v (List.mem_cons_of_mem _ hm))
        rw [hno]; rfl
      | succ i =>
        rw [if_neg (fun e => by have := posKey_inj e; omega), Option.or_none]
        have := ih (n + 1) i
        rw [show n + 1 + i + 1 = n + (i + 1) + 1 by omega] at this
        rw [this]; rfl

/-- **C33** — the `i`-th positional entry (from 0) is found under the key `@positional-(i+1)`, and there
is none beyond the last (names cannot be taken for positions, they do not start with `@`). -/
theorem group_positionals (l : List Item) (i : Nat)
    (h : ∀ k v, Item.named k v ∈ l → k.toList.head? ≠ some '@') :
    AMap.get (newAttributes l) (posKey (i + 1)) = (positionals l)[i]? := by
  rw [group_last_wins l _ (posKey_plain _)]
  have := lastValue_pos l h 0 i
  rw [Nat.zero_add] at this
  exact this

/-! ### Several lines of attributes -/

/-- A map as `NewAttributes` builds it: each key once, no singular `role`/`option` key, `roles` and
`options` of the expected types. -/
structure Built (g : Attrs) : Prop where
  wf : AMap.WF g
  noRole : AMap.get g "role" = none
  noOption : AMap.get g "option" = none
  roles : ∀ v, AMap.get g "roles" = some v → ∃ r, v = .roles r
  options : ∀ v, AMap.get g "options" = some v → ∃ r, v = .options r

theorem wf_set {a : Attrs} (h : AMap.WF a) (k : String) (v : AVal) : AMap.WF (set a k v) := by
  unfold EAttrs.set setRole setRoles setOption
  repeat' split
  all_goals first | exact AMap.WF_set h _ _ | exact h

theorem built_set {a : Attrs} (h : Built a) (k : String) (v : AVal) : Built (set a k v) := by
  refine ⟨wf_set h.wf k v, ?_, ?_, ?_, ?_⟩
  · rcases plain_or k with hp | hp | hp | hp | hp
    · rw [set_plain _ _ hp, AMap.get_set_ne _ _ hp.1.symm]; exact h.noRole
    · subst hp; rw [set_role_key, get_setRole _ _ (by decide)]; exact h.noRole
    · subst hp; rw [set_roles_key]
      cases v <;> first | exact h.noRole | (rw [get_setRoles _ _ (by decide)]; exact h.noRole)
    · subst hp; rw [set_option_key, get_setOption _ _ (by decide)]; exact h.noRole
    · subst hp; rw [set_options_key, AMap.get_set_ne _ _ (by decide)]; exact h.noRole
  · rcases plain_or k with hp | hp | hp | hp | hp
    · rw [set_plain _ _ hp, AMap.get_set_ne _ _ hp.2.2.1.symm]; exact h.noOption
    · subst hp; rw [set_role_key, get_setRole _ _ (by decide)]; exact h.noOption
    · subst hp; rw [set_roles_key]
      cases v <;> first | exact h.noOption | (rw [get_setRoles _ _ (by decide)]; exact h.noOption)
    · subst hp; rw [set_option_key, get_setOption _ _ (by decide)]; exact h.noOption
    · subst hp; rw [set_options_key, AMap.get_set_ne _ _ (by decide)]; exact h.noOption
  · intro w hw
    rcases plain_or k with hp | hp | hp | hp | hp
    · rw [set_plain _ _ hp, AMap.get_set_ne _ _ hp.2.1.symm] at hw; exact h.roles w hw
    · subst hp; rw [set_role_key] at hw; unfold setRole at hw
      split at hw <;> (rw [AMap.get_set_self] at hw; exact ⟨_, (Option.some.inj hw).symm⟩)
    · subst hp; rw [set_roles_key] at hw
      cases v with
      | roles r =>
        dsimp only at hw
        unfold setRoles at hw
        split at hw <;> (rw [AMap.get_set_self] at hw; exact ⟨_, (Option.some.inj hw).symm⟩)
      | _ => exact h.roles w hw
    · subst hp; rw [set_option_key, get_setOption _ _ (by decide)] at hw; exact h.roles w hw
    · subst hp; rw [set_options_key, AMap.get_set_ne _ _ (by decide)] at hw; exact h.roles w hw
  · intro w hw
    rcases plain_or k with hp | hp | hp | hp | hp
    · rw [set_plain _ _ hp, AMap.get_set_ne _ _ hp.2.2.2.symm] at hw; exact h.options w hw
    · subst hp; rw [set_role_key, get_setRole _ _ (by decide)] at hw; exact h.options w hw
    · subst hp; rw [set_roles_key] at hw
      cases v with
      | roles r => rw [get_setRoles _ _ (by decide)] at hw; exact h.options w hw
      | _ => exact h.options w hw
    · subst hp; rw [set_option_key] at hw; unfold setOption at hw
      split at hw <;> (rw [AMap.get_set_self] at hw; exact ⟨_, (Option.some.inj hw).symm⟩)
    · subst hp; rw [set_options_key, AMap.get_set_self] at hw; exact ⟨_, (Option.some.inj hw).symm⟩

theorem built_nil : Built ([] : Attrs) :=
  ⟨List.nodup_nil, rfl, rfl, fun _ h => (by cases h), fun _ h => (by cases h)⟩

theorem built_entries (es : List (String × AVal)) {a : Attrs} (h : Built a) : Built (setEntries a es) := by
  induction es generalizing a with
  | nil => exact h
  | cons p es ih => exact ih (built_set h p.1 p.2)

/-- Every group the parser builds is of that form. -/
theorem built_new (l : List Item) : Built (newAttributes l) := by
  unfold newAttributes
  rw [newLoop_eq]
  exact built_entries _ built_nil

theorem built_perm {g g' : Attrs} (h : Built g) (p : g.Perm g') : Built g' := by
  have e := fun k => AMap.get_perm h.wf p k
  refine ⟨?_, (e _) ▸ h.noRole, (e _) ▸ h.noOption, fun v hv => h.roles v ((e _) ▸ hv),
    fun v hv => h.options v ((e _) ▸ hv)⟩
  have := h.wf
  unfold AMap.WF at *
  exact (p.map _).nodup_iff.1 this

/-- The value of `roles` and of `options` after merging a group, and of any other key. -/
def mergedValue (a g : Attrs) (k : String) : Option AVal :=
  if k = "roles" then
    match AMap.get g "roles" with
    | some (.roles r) => some (.roles (roles a ++ r))
    | _ => AMap.get a "roles"
  else if k = "options" then
    match AMap.get g "options" with
    | some v => some (.options (toOptions v))
    | none => AMap.get a "options"
  else (AMap.get g k).or (AMap.get a k)

theorem get_addAll (g a : Attrs) (wf : AMap.WF g) (h1 : AMap.get g "role" = none)
    (h2 : AMap.get g "option" = none) (k : String) : AMap.get (addAll a g) k = mergedValue a g k := by
  induction g generalizing a with
  | nil =>
    show AMap.get a k = mergedValue a [] k
    unfold mergedValue
    simp only [AMap.get_nil, Option.none_or]
    split
    · rename_i h; rw [h]
    · split
      · rename_i h; rw [h]
      · rfl
  | cons p g ih =>
    obtain ⟨pk, pv⟩ := p
    simp only [AMap.WF, List.map_cons, List.nodup_cons] at wf
    have hk1 : pk ≠ "role" := by
      intro e; rw [AMap.get_cons, if_pos e] at h1; cases h1
    have hk2 : pk ≠ "option" := by
      intro e; rw [AMap.get_cons, if_pos e] at h2; cases h2
    rw [AMap.get_cons, if_neg hk1] at h1
    rw [AMap.get_cons, if_neg hk2] at h2
    have hno : AMap.get g pk = none := AMap.get_eq_none_iff.2 wf.1
    show AMap.get (addAll (set a pk pv) g) k = _
    rw [ih (set a pk pv) wf.2 h1 h2]
    unfold mergedValue
    rw [roles_set, AMap.get_cons, AMap.get_cons, AMap.get_cons, entryRoles_eq, if_neg hk1]
    by_cases hr : k = "roles"
    · subst hr
      rw [if_pos rfl, if_pos rfl]
      by_cases e : pk = "roles"
      · subst e
        rw [hno, if_pos rfl, if_pos rfl, set_roles_key]
        cases pv with
        | roles r =>
          dsimp only
          unfold setRoles roles
          cases asRoles (AMap.get a "roles") <;> simp
        | _ => rfl
      · rw [if_neg e, if_neg e, List.append_nil]
        rcases plain_or pk with hp | hp | hp | hp | hp
        · rw [set_plain _ _ hp, AMap.get_set_ne _ _ (fun h => e h.symm)]
        · exact absurd hp hk1
        · exact absurd hp e
        · exact absurd hp hk2
        · subst hp; rw [set_options_key, AMap.get_set_ne _ _ (by decide)]
    · rw [if_neg hr, if_neg hr]
      by_cases ho : k = "options"
      · subst ho
        rw [if_pos rfl, if_pos rfl]
        by_cases e : pk = "options"
        · subst e
          rw [hno, if_pos rfl, set_options_key, AMap.get_set_self]
        · rw [if_neg e]
          rcases plain_or pk with hp | hp | hp | hp | hp
          · rw [set_plain _ _ hp, AMap.get_set_ne _ _ (fun h => e h.symm)]
          · exact absurd hp hk1
          · subst hp
            rw [set_roles_key]
            cases pv <;> try rfl
            rw [get_setRoles _ _ (by decide)]
          · exact absurd hp hk2
          · exact absurd hp e
      · rw [if_neg ho, if_neg ho]
        by_cases e : pk = k
        · subst e
          rw [hno, if_pos rfl, set_plain _ _ ⟨hk1, hr, hk2, ho⟩, AMap.get_set_self]
          rfl
        · rw [if_neg e]
          congr 1
          rcases plain_or pk with hp | hp | hp | hp | hp
          · rw [set_plain _ _ hp, AMap.get_set_ne _ _ (fun h => e h.symm)]
          · exact absurd hp hk1
          · subst hp
            rw [set_roles_key]
            cases pv <;> try rfl
            rw [get_setRoles _ _ hr]
          · exact absurd hp hk2
          · subst hp; rw [set_options_key, AMap.get_set_ne _ _ ho]

/-- A line as the grammar produces it: an `[[id]]`/`.title` line, or a group. -/
def LineOk : Line → Prop
  | .entry k _ => Plain k
  | .group g => Built g

/-- The roles given by a line. -/
def lineRoles : Line → List AVal
  | .entry _ _ => []
  | .group g => roles g

/-- The value a line gives to a key. -/
def lineValue (k : String) : Line → Option AVal
  | .entry k' v => if k' = k then some v else none
  | .group g => AMap.get g k

theorem roles_step (a : Attrs) (l : Line) (h : LineOk l) : roles (mergeStep a l) = roles a ++ lineRoles l := by
  cases l with
  | entry k v =>
    show roles (set a k v) = _
    rw [roles_set, entryRoles_eq, if_neg h.1, if_neg h.2.1]
    rfl
  | group g =>
    show roles (addAll a g) = roles a ++ roles g
    conv => lhs; unfold roles
    have h : Built g := h
    rw [get_addAll g a h.wf h.noRole h.noOption]
    unfold mergedValue
    rw [if_pos rfl]
    cases hg : AMap.get g "roles" with
    | none => simp [roles, hg, asRoles]
    | some v =>
      obtain ⟨r, rfl⟩ := h.roles v hg
      simp [roles, hg, asRoles]

theorem get_step (a : Attrs) (l : Line) (h : LineOk l) (k : String) (hk : Plain k) :
    AMap.get (mergeStep a l) k = (lineValue k l).or (AMap.get a k) := by
  cases l with
  | entry k' v =>
    show AMap.get (set a k' v) k = _
    rw [get_set_plain _ _ _ _ hk]
    show _ = Option.or (if k' = k then some v else none) _
    split <;> rfl
  | group g =>
    show AMap.get (addAll a g) k = _
    have h : Built g := h
    rw [get_addAll g a h.wf h.noRole h.noOption]
    unfold mergedValue
    rw [if_neg hk.2.1, if_neg hk.2.2.2]
    rfl

theorem options_step (a : Attrs) (l : Line) (h : LineOk l) :
    AMap.get (mergeStep a l) "options" = (lineValue "options" l).or (AMap.get a "options") := by
  cases l with
  | entry k' v =>
    have h : Plain k' := h
    show AMap.get (set a k' v) "options" = _
    rw [set_plain _ _ h, AMap.get_set_ne _ _ h.2.2.2.symm]
    show _ = Option.or (if k' = "options" then some v else none) _
    rw [if_neg h.2.2.2]; rfl
  | group g =>
    show AMap.get (addAll a g) "options" = _
    have h : Built g := h
    rw [get_addAll g a h.wf h.noRole h.noOption]
    unfold mergedValue
    rw [if_neg (by decide), if_pos rfl]
    show _ = (AMap.get g "options").or _
    cases hg : AMap.get g "options" with
    | none => rfl
    | some v => obtain ⟨r, rfl⟩ := h.options v hg; rfl

theorem roles_lines (l : List Line) (h : ∀ x ∈ l, LineOk x) (a : Attrs) :
    roles (l.foldl mergeStep a) = roles a ++ l.flatMap lineRoles := by
  induction l generalizing a with
  | nil => simp
  | cons x l ih =>
    rw [List.foldl_cons, ih (fun y hy => h y (List.mem_cons_of_mem _ hy)),
      roles_step a x (h x (List.mem_cons_self ..)), List.flatMap_cons, List.append_assoc]

theorem last_cons (f : Line → Option AVal) (x : Line) (l : List Line) :
    ((x :: l).filterMap f).getLast? = ((l.filterMap f).getLast?).or (f x) := by
  rw [List.filterMap_cons]
  split
  · rename_i h; rw [h, Option.or_none]
  · rename_i v h
    rw [h, List.getLast?_cons]
    cases (l.filterMap f).getLast? <;> rfl

theorem get_lines (k : String) (hstep : ∀ a x, LineOk x →
      AMap.get (mergeStep a x) k = (lineValue k x).or (AMap.get a k))
    (l : List Line) (h : ∀ x ∈ l, LineOk x) (a : Attrs) :
    AMap.get (l.foldl mergeStep a) k = ((l.filterMap (lineValue k)).getLast?).or (AMap.get a k) := by
  induction l generalizing a with
  | nil => rfl
  | cons x l ih =>
    rw [List.foldl_cons, ih (fun y hy => h y (List.mem_cons_of_mem _ hy)),
      hstep a x (h x (List.mem_cons_self ..)), last_cons, Option.or_assoc]

/-- **C33** — the roles of a block are those of all its attribute lines, in order. -/
theorem block_roles (l : List Line) (h : ∀ x ∈ l, LineOk x) :
    roles (mergeAttributes l) = l.flatMap lineRoles := by
  unfold mergeAttributes
  rw [roles_lines l h]; rfl

/-- **C33** — every other key has the value given by the last line that gives one. -/
theorem block_last_wins (l : List Line) (h : ∀ x ∈ l, LineOk x) (k : String) (hk : Plain k) :
    AMap.get (mergeAttributes l) k = (l.filterMap (lineValue k)).getLast? := by
  unfold mergeAttributes
  rw [get_lines k (fun a x hx => get_step a x hx k hk) l h]; simp

/-- **C33** — the options of a block are those of the last line that has some: they do not accumulate
over lines. -/
theorem block_options_last_line (l : List Line) (h : ∀ x ∈ l, LineOk x) :
    AMap.get (mergeAttributes l) "options" = (l.filterMap (lineValue "options")).getLast? := by
  unfold mergeAttributes
  rw [get_lines "options" (fun a x hx => options_step a x hx) l h]; simp

/-- Two executions that read the lines in the same order but the maps in any order. -/
inductive SameLines : List Line → List Line → Prop
  | nil : SameLines [] []
  | entry (k : String) (v : AVal) {l l' : List Line} : SameLines l l' →
      SameLines (.entry k v :: l) (.entry k v :: l')
  | group {g g' : Attrs} {l l' : List Line} : g.Perm g' → SameLines l l' →
      SameLines (.group g :: l) (.group g' :: l')

theorem sameLines_ok {l l' : List Line} (s : SameLines l l') (h : ∀ x ∈ l, LineOk x) : ∀ x ∈ l', LineOk x := by
  induction s with
  | nil => exact h
  | entry k v s ih =>
    intro x hx
    rcases List.mem_cons.1 hx with e | hx
    · subst e; exact h _ (List.mem_cons_self ..)
    · exact ih (fun y hy => h y (List.mem_cons_of_mem _ hy)) x hx
  | group p s ih =>
    intro x hx
    rcases List.mem_cons.1 hx with e | hx
    · subst e; exact built_perm (h _ (List.mem_cons_self ..)) p
    · exact ih (fun y hy => h y (List.mem_cons_of_mem _ hy)) x hx

theorem mergedValue_congr {a a' g g' : Attrs} (e : ∀ k, AMap.get a k = AMap.get a' k)
    (eg : ∀ k, AMap.get g k = AMap.get g' k) (k : String) : mergedValue a g k = mergedValue a' g' k := by
  unfold mergedValue roles
  rw [e, e, e, eg, eg, eg]

theorem get_set_congr {a a' : Attrs} (e : ∀ k, AMap.get a k = AMap.get a' k) (k : String) (v : AVal)
    (k' : String) : AMap.get (set a k v) k' = AMap.get (set a' k v) k' := by
  unfold EAttrs.set setRole setRoles setOption
  rw [e "roles", e "options"]
  repeat' split
  all_goals first | (rw [AMap.get_set, AMap.get_set, e]) | exact e _

/-- **C33** — the merged attributes do not depend on the iteration order of the maps. -/
theorem block_order_independent {l l' : List Line} (s : SameLines l l') (h : ∀ x ∈ l, LineOk x)
    (k : String) : AMap.get (mergeAttributes l) k = AMap.get (mergeAttributes l') k := by
  unfold mergeAttributes
  have key : ∀ (a a' : Attrs), (∀ k, AMap.get a k = AMap.get a' k) →
      ∀ k, AMap.get (l.foldl mergeStep a) k = AMap.get (l'.foldl mergeStep a') k := by
    clear k
    induction s with
    | nil => intro a a' e; exact e
    | entry k v s ih =>
      intro a a' e
      exact ih (fun y hy => h y (List.mem_cons_of_mem _ hy)) _ _ (fun k' => get_set_congr e k v k')
    | group p s ih =>
      intro a a' e
      have hg : Built _ := h _ (List.mem_cons_self ..)
      refine ih (fun y hy => h y (List.mem_cons_of_mem _ hy)) _ _ (fun k' => ?_)
      have hg' := built_perm hg p
      show AMap.get (addAll a _) k' = AMap.get (addAll a' _) k'
      rw [get_addAll _ _ hg.wf hg.noRole hg.noOption, get_addAll _ _ hg'.wf hg'.noRole hg'.noOption]
      exact mergedValue_congr e (fun k => AMap.get_perm hg.wf p k) k'
  exact key [] [] (fun _ => rfl) k

/-! ### Findings -/

/-- `[%a,opts="b"]`: the option `a` is lost. -/
theorem finding_opts_replaces :
    options (newAttributes [.named "option" (.str "a".toList), .named "opts" (.str "b".toList)]) =
      [.str "b".toList] ∧
    hasOption (newAttributes [.named "option" (.str "a".toList), .named "opts" (.str "b".toList)]) "a" = false := by
  constructor <;> rfl

/-- `[opts="a,b"]` then `[%c]` on the next line: `a` and `b` are lost. -/
theorem finding_options_of_lines_replaced :
    options (mergeAttributes [.group (newAttributes [.named "opts" (.str "a,b".toList)]),
      .group (newAttributes [.named "option" (.str "c".toList)])]) = [.str "c".toList] := rfl

/-- `[roles="a"]`: the value is dropped without notice. -/
theorem finding_roles_text_dropped :
    newAttributes [.named "roles" (.str "a".toList)] = [] := rfl

/-- Options separated by a comma and a space: the second one is not recognised. -/
theorem finding_options_not_trimmed :
    hasOption (newAttributes [.named "opts" (.str "a, b".toList)]) "b" = false := rfl

/-- "inline attributes trump block attributes" (types.go:2011) does not hold: the `alt` of the block
wins over the one of the image. -/
theorem finding_block_trumps_inline :
    AMap.get (imageAttributes imageTable (newAttributes [.pos (.str "inner".toList)])
      (newAttributes [.named "alt" (.str "outer".toList)])) "alt" = some (.str "outer".toList) := rfl

/-! ### Examples -/

/-- `[#i.r1%o1.r2,x,k=1,k=2]`, then a title, then `[.r3]`. -/
example :
    let l := [Line.group (newAttributes [.named "id" (.str "i".toList), .named "role" (.str "r1".toList),
        .named "option" (.str "o1".toList), .named "role" (.str "r2".toList), .pos (.str "x".toList),
        .named "k" (.str "1".toList), .named "k" (.str "2".toList)]),
      Line.entry "title" (.str "t".toList), Line.group (newAttributes [.named "role" (.str "r3".toList)])]
    roles (mergeAttributes l) = [.str "r1".toList, .str "r2".toList, .str "r3".toList] ∧
    options (mergeAttributes l) = [.str "o1".toList] ∧
    AMap.get (mergeAttributes l) "k" = some (.str "2".toList) ∧
    AMap.get (mergeAttributes l) "@positional-1" = some (.str "x".toList) ∧
    (∀ x ∈ l, LineOk x) := by
  refine ⟨rfl, rfl, rfl, rfl, ?_⟩
  intro x hx
  simp only [List.mem_cons, List.not_mem_nil, or_false] at hx
  rcases hx with rfl | rfl | rfl
  · exact built_new _
  · exact ⟨by decide, by decide, by decide, by decide⟩
  · exact built_new _

end C33

namespace C42
open EAttrs

/-- A mapping table whose result cannot depend on its iteration order: no key is mapped twice, no name
is given twice, and no name is itself mapped. -/
structure Good (t : List (String × String)) : Prop where
  sources : (t.map Prod.fst).Nodup
  targets : (t.map Prod.snd).Nodup
  apart : ∀ p ∈ t, ∀ q ∈ t, p.1 ≠ q.2

/-- All the tables of the code are such. -/
theorem tables_good : ∀ t ∈ tables, Good t := by
  have h : ∀ t ∈ tables, (t.map Prod.fst).Nodup ∧ (t.map Prod.snd).Nodup ∧
      ∀ p ∈ t, ∀ q ∈ t, p.1 ≠ q.2 := by decide
  exact fun t ht => ⟨(h t ht).1, (h t ht).2.1, (h t ht).2.2⟩

/-- What a positional value becomes under its name: nothing if it is empty, `true` if it equals the
name, a one-element list for roles. -/
def named (source target : String) (v : Option AVal) : Option AVal :=
  match v with
  | none => none
  | some v => if v.isBlank then none else some (flagValue target (wrapRole source target v))

theorem get_mapStep (a : Attrs) (s t : String) (h : s ≠ t) (k : String) :
    AMap.get (mapStep a (s, t)) k =
      if k = s then none else if k = t then (AMap.get a t).or (named s t (AMap.get a s)) else AMap.get a k := by
  unfold mapStep
  dsimp only
  cases hs : AMap.get a s with
  | none =>
    dsimp only
    split
    · rename_i e; rw [e, hs]
    · split
      · rename_i e; rw [e]; simp [named]
      · rfl
  | some v =>
    dsimp only
    rw [AMap.get_del]
    split
    · rfl
    · unfold mapEntry named
      dsimp only
      split
      · split
        · rename_i e; rw [e, Option.or_none]
        · rfl
      · cases ht : AMap.get a t with
        | some w =>
          dsimp only
          split
          · rename_i e; rw [e, ht]; rfl
          · rfl
        | none =>
          dsimp only
          rw [AMap.get_set]
          rfl

theorem mapped_other (t : List (String × String)) (h : ∀ p ∈ t, p.1 ≠ p.2) (a : Attrs) (k : String)
    (h1 : k ∉ t.map Prod.fst) (h2 : k ∉ t.map Prod.snd) : AMap.get (mapped t a) k = AMap.get a k := by
  induction t generalizing a with
  | nil => rfl
  | cons p t ih =>
    simp only [List.map_cons, List.mem_cons, not_or] at h1 h2
    show AMap.get (mapped t (mapStep a p)) k = _
    rw [ih (fun q hq => h q (List.mem_cons_of_mem _ hq)) _ h1.2 h2.2,
      get_mapStep a p.1 p.2 (h p (List.mem_cons_self ..)), if_neg h1.1, if_neg h2.1]

theorem mapped_source (t : List (String × String)) (g : Good t) (a : Attrs) (k : String)
    (h : k ∈ t.map Prod.fst) : AMap.get (mapped t a) k = none := by
  induction t generalizing a with
  | nil => cases h
  | cons p t ih =>
    have g' : Good t := ⟨(List.nodup_cons.1 g.sources).2, (List.nodup_cons.1 g.targets).2,
      fun x hx y hy => g.apart x (List.mem_cons_of_mem _ hx) y (List.mem_cons_of_mem _ hy)⟩
    show AMap.get (mapped t (mapStep a p)) k = none
    by_cases hk : k ∈ t.map Prod.fst
    · exact ih g' _ hk
    · rcases List.mem_cons.1 h with e | h
      · have hn : k ∉ t.map Prod.snd := by
          intro hm
          obtain ⟨q, hq, hq'⟩ := List.mem_map.1 hm
          exact g.apart p (List.mem_cons_self ..) q (List.mem_cons_of_mem _ hq) (e.symm.trans hq'.symm)
        rw [mapped_other t (fun q hq => g'.apart q hq q hq) _ _ hk hn,
          get_mapStep a p.1 p.2 (g.apart p (List.mem_cons_self ..) p (List.mem_cons_self ..)), if_pos e]
      · exact absurd h hk

theorem mapped_target (t : List (String × String)) (g : Good t) (a : Attrs) (s k : String)
    (h : (s, k) ∈ t) : AMap.get (mapped t a) k = (AMap.get a k).or (named s k (AMap.get a s)) := by
  induction t generalizing a with
  | nil => cases h
  | cons p t ih =>
    have g' : Good t := ⟨(List.nodup_cons.1 g.sources).2, (List.nodup_cons.1 g.targets).2,
      fun x hx y hy => g.apart x (List.mem_cons_of_mem _ hx) y (List.mem_cons_of_mem _ hy)⟩
    show AMap.get (mapped t (mapStep a p)) k = _
    have hp : p.1 ≠ p.2 := g.apart p (List.mem_cons_self ..) p (List.mem_cons_self ..)
    rcases List.mem_cons.1 h with e | h
    · subst e
      have h1 : k ∉ t.map Prod.fst := by
        intro hm
        obtain ⟨q, hq, hq'⟩ := List.mem_map.1 hm
        exact g.apart q (List.mem_cons_of_mem _ hq) _ (List.mem_cons_self ..) hq'
      rw [mapped_other t (fun q hq => g'.apart q hq q hq) _ _ h1 (List.nodup_cons.1 g.targets).1,
        get_mapStep a s k hp, if_neg (fun e => hp e.symm), if_pos rfl]
    · have n1 : k ≠ p.1 := fun e => g.apart p (List.mem_cons_self ..) _ (List.mem_cons_of_mem _ h) e.symm
      have n2 : k ≠ p.2 := fun e => (List.nodup_cons.1 g.targets).1 (e ▸ List.mem_map.2 ⟨_, h, rfl⟩)
      have n3 : s ≠ p.1 := fun e => (List.nodup_cons.1 g.sources).1 (e ▸ List.mem_map.2 ⟨_, h, rfl⟩)
      have n4 : s ≠ p.2 := fun e => g.apart _ (List.mem_cons_of_mem _ h) p (List.mem_cons_self ..) e
      rw [ih g' _ h, get_mapStep a p.1 p.2 hp, get_mapStep a p.1 p.2 hp, if_neg n1, if_neg n2, if_neg n3, if_neg n4]

/-- **C42** — for every mapping table of the code, every iteration order `o` of it and all attributes:
a mapped name keeps the value given by name, otherwise takes the positional one; the position itself is
removed; all other attributes are unchanged. -/
theorem positional_named (t o : List (String × String)) (ht : t ∈ tables) (p : t.Perm o) (a : Attrs) :
    (∀ s k, (s, k) ∈ t → AMap.get (mapped o a) k = (AMap.get a k).or (named s k (AMap.get a s)) ∧
      AMap.get (mapped o a) s = none) ∧
    (∀ k, k ∉ t.map Prod.fst → k ∉ t.map Prod.snd → AMap.get (mapped o a) k = AMap.get a k) := by
  have g := tables_good t ht
  have go : Good o := ⟨(p.map _).nodup_iff.1 g.sources, (p.map _).nodup_iff.1 g.targets,
    fun x hx y hy => g.apart x (p.mem_iff.2 hx) y (p.mem_iff.2 hy)⟩
  refine ⟨fun s k h => ⟨mapped_target o go a s k (p.mem_iff.1 h), mapped_source o go a s ?_⟩, ?_⟩
  · exact List.mem_map.2 ⟨_, p.mem_iff.1 h, rfl⟩
  · intro k h1 h2
    exact mapped_other o (fun q hq => go.apart q hq q hq) a k
      (fun h => h1 ((p.map _).mem_iff.2 h)) (fun h => h2 ((p.map _).mem_iff.2 h))

/-- **C42** — the result does not depend on the iteration order. -/
theorem mapping_order_independent (t o : List (String × String)) (ht : t ∈ tables) (p : t.Perm o) (a : Attrs)
    (k : String) : AMap.get (mapped o a) k = AMap.get (mapped t a) k := by
  have A := positional_named t o ht p a
  have B := positional_named t t ht (List.Perm.refl _) a
  by_cases h1 : k ∈ t.map Prod.fst
  · obtain ⟨⟨s, n⟩, hm, rfl⟩ := List.mem_map.1 h1
    rw [(A.1 s n hm).2, (B.1 s n hm).2]
  · by_cases h2 : k ∈ t.map Prod.snd
    · obtain ⟨⟨s, n⟩, hm, rfl⟩ := List.mem_map.1 h2
      rw [(A.1 s n hm).1, (B.1 s n hm).1]
    · rw [A.2 k h1 h2, B.2 k h1 h2]

/-- **C42** — mapping twice is mapping once (attributes are mapped each time they are added to). -/
theorem mapping_idempotent (t : List (String × String)) (ht : t ∈ tables) (a : Attrs) (k : String) :
    AMap.get (mapped t (mapped t a)) k = AMap.get (mapped t a) k := by
  have A := positional_named t t ht (List.Perm.refl _) a
  have B := positional_named t t ht (List.Perm.refl _) (mapped t a)
  by_cases h1 : k ∈ t.map Prod.fst
  · obtain ⟨⟨s, n⟩, hm, rfl⟩ := List.mem_map.1 h1
    rw [(A.1 s n hm).2, (B.1 s n hm).2]
  · by_cases h2 : k ∈ t.map Prod.snd
    · obtain ⟨⟨s, n⟩, hm, rfl⟩ := List.mem_map.1 h2
      rw [(B.1 s n hm).1, (A.1 s n hm).2]
      simp [named]
    · rw [B.2 k h1 h2]

/-- **C42** — for paragraphs the second table depends on the style found by the first; the result does
not depend on any iteration order either. -/
theorem paragraph_order_independent (o1 o2 : List (String × String)) (p1 : languageTable.Perm o1)
    (p2 : attributionTable.Perm o2) (a : Attrs) (k : String) :
    AMap.get (mapParagraph o1 o2 a) k = AMap.get (mapParagraph languageTable attributionTable a) k := by
  unfold mapParagraph
  dsimp only
  split
  · split
    · exact mapping_order_independent _ _ (by decide) p1 _ k
    · split
      · exact mapping_order_independent _ _ (by decide) p2 _ k
      · rfl
  · rfl

/-- `[quote,author,title]` on a paragraph, in both iteration orders. -/
example :
    let a : Attrs := C33.setEntries [] (C33.entries 0 [.pos (.str "quote".toList), .pos (.str "John".toList),
      .pos (.str "Book".toList)])
    AMap.get (mapParagraph languageTable attributionTable a) "quoteAuthor" = some (.str "John".toList) ∧
    AMap.get (mapParagraph languageTable attributionTable.reverse a) "quoteTitle" = some (.str "Book".toList) ∧
    AMap.get (mapParagraph languageTable attributionTable a) "@positional-2" = none := ⟨rfl, rfl, rfl⟩

/-- `[source,go,linenums]`: the flag. An empty position is skipped: `[source,,linenums]`. -/
example :
    AMap.get (mapped listingTable (newAttributes [.pos (.str "source".toList), .pos .nil,
      .pos (.str "linenums".toList)])) "linenums" = some (.bool true) ∧
    AMap.get (mapped listingTable (newAttributes [.pos (.str "source".toList), .pos .nil,
      .pos (.str "linenums".toList)])) "language" = none := ⟨rfl, rfl⟩

/-- The hypotheses matter: with a table mapping a name that is itself mapped, the order changes the
result. -/
theorem order_matters_otherwise :
    let a : Attrs := [("x", .str ['1'])]
    AMap.get (mapped [("x", "y"), ("y", "z")] a) "z" ≠ AMap.get (mapped [("y", "z"), ("x", "y")] a) "z" := by
  intro a h
  cases h

end C42
end Verif
