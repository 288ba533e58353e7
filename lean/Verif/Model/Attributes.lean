import Verif.Model.Subs

/-!
Element attributes: `pkg/types/attributes.go` and the positional mappings of `pkg/types/types.go`.

A Go map is an association list; where the code ranges over a map, the model processes the list in
the order given, and the theorems quantify over all orders.  Slices are immutable lists (the spare
capacity that Go's `append` may share between two `Roles` slices is not modelled).
-/
namespace Verif
namespace EAttrs

/-- An attribute value (Go `interface{}`): nil, strings, booleans, the two slice types with a special
meaning, and anything else (a slice of inline elements, …). -/
inductive AVal where
  | nil
  | str (s : Text)
  | bool (b : Bool)
  | roles (l : List AVal)
  | options (l : List AVal)
  | other (id : Nat)
deriving Repr

/-- attributes.go:179-182 `Attributes`. -/
abbrev Attrs := AMap AVal

/-- `roles, ok := a[AttrRoles].(Roles)`: the roles present, if any. -/
def asRoles : Option AVal → Option (List AVal)
  | some (.roles l) => some l
  | _ => none

/-- `options, ok := a[AttrOptions].(Options)`. -/
def asOptions : Option AVal → Option (List AVal)
  | some (.options l) => some l
  | _ => none

/-- attributes.go:418-433: the options denoted by the value of an `options` entry. -/
def toOptions : AVal → List AVal
  | .options l => l
  | .str s => (Subs.splitComma s).map .str
  | v => [v]

/-- attributes.go:400-405: a `role` entry. -/
def setRole (a : Attrs) (v : AVal) : Attrs :=
  match asRoles (AMap.get a "roles") with
  | some r => AMap.set a "roles" (.roles (r ++ [v]))
  | none => AMap.set a "roles" (.roles [v])

/-- attributes.go:407-411: a `roles` entry holding a `Roles` value. -/
def setRoles (a : Attrs) (r : List AVal) : Attrs :=
  match asRoles (AMap.get a "roles") with
  | some r0 => AMap.set a "roles" (.roles (r0 ++ r))
  | none => AMap.set a "roles" (.roles r)

/-- attributes.go:413-417: an `option` entry. -/
def setOption (a : Attrs) (v : AVal) : Attrs :=
  match asOptions (AMap.get a "options") with
  | some o => AMap.set a "options" (.options (o ++ [v]))
  | none => AMap.set a "options" (.options [v])

/-- attributes.go:387-438 `Attributes.Set` (on a nil map it starts from an empty one, which reads the
same). -/
def set (a : Attrs) (k : String) (v : AVal) : Attrs :=
  if k = "role" then setRole a v
  else if k = "roles" then
    match v with
    | .roles r => setRoles a r
    | _ => a
  else if k = "option" then setOption a v
  else if k = "options" then AMap.set a "options" (.options (toOptions v))
  else AMap.set a k v

/-- attributes.go:233-244 `AddAll` (and the `Attributes` case of `SetAll`, attributes.go:454-464), for
the iteration order of the list `others`. -/
def addAll (a others : Attrs) : Attrs := others.foldl (fun m p => set m p.1 p.2) a

/-- An entry between `[` and `]`: positional, or named (shorthands such as `.role`, `%option` and `#id`
are named entries `role`, `option`, `id`: attributes.go:343-384). -/
inductive Item where
  | pos (v : AVal)
  | named (k : String) (v : AVal)
deriving Repr

/-- attributes.go:339-341 `PositionalAttribute.Key`. -/
def posKey (i : Nat) : String := "@positional-" ++ toString i

/-- attributes.go:363-373 `NewNamedAttribute`: the alias `opts`. (Trimming of the key is done on the
text and not modelled.) -/
def namedKey (k : String) : String := if k = "opts" then "options" else k

/-- attributes.go:188-207 `NewAttributes`: the loop, with the number of positional entries so far. -/
def newLoop (a : Attrs) (idx : Nat) : List Item → Attrs
  | [] => a
  | .pos v :: t => newLoop (set a (posKey (idx + 1)) v) (idx + 1) t
  | .named k v :: t => newLoop (set a (namedKey k) v) idx t

/-- attributes.go:188-207 `NewAttributes`. -/
def newAttributes (l : List Item) : Attrs := newLoop [] 0 l

/-- One line of block attributes: a `[[id]]` or `.title` line is one entry, a `[…]` line is a group
(parser.peg:369-386), here with the iteration order of its map. -/
inductive Line where
  | entry (k : String) (v : AVal)
  | group (g : Attrs)
deriving Repr

/-- attributes.go:221-228: one step of `MergeAttributes`. -/
def mergeStep (a : Attrs) : Line → Attrs
  | .entry k v => set a k v
  | .group g => addAll a g

/-- attributes.go:216-230 `MergeAttributes`. -/
def mergeAttributes (l : List Line) : Attrs := l.foldl mergeStep []

/-- `v != nil && v != ""` (attributes.go:253). -/
def AVal.isBlank : AVal → Bool
  | .nil => true
  | .str [] => true
  | _ => false

/-- `target == v` (attributes.go:264): a value equal to the name of its key is replaced with `true`. -/
def flagValue (target : String) : AVal → AVal
  | .str s => if s = target.toList then .bool true else .str s
  | v => v

/-- attributes.go:254-257: a first positional used as role is wrapped. -/
def wrapRole (source target : String) (v : AVal) : AVal :=
  if source = "@positional-1" ∧ target = "roles" then .roles [v] else v

/-- attributes.go:253-271: what is done when the source key exists with value `v`. -/
def mapEntry (a : Attrs) (source target : String) (v : AVal) : Attrs :=
  if v.isBlank then a
  else
    match AMap.get a target with
    | some _ => a
    | none => AMap.set a target (flagValue target (wrapRole source target v))

/-- attributes.go:251-274: one pair of the mapping table. -/
def mapStep (a : Attrs) (p : String × String) : Attrs :=
  match AMap.get a p.1 with
  | none => a
  | some v => AMap.del (mapEntry a p.1 p.2 v) p.1

/-- attributes.go:246-281 `toAttributesWithMapping`, for the iteration order of the list `mapping`.
(A nil result stands for the empty map, which reads the same.) -/
def mapped (mapping : List (String × String)) (a : Attrs) : Attrs := mapping.foldl mapStep a

/-- The mapping tables: types.go:1273, 1439, 1703, 1798, 2385 (lists, paragraphs, examples). -/
def styleTable : List (String × String) := [("@positional-1", "style")]
/-- types.go:1803-1805 (source paragraphs). -/
def languageTable : List (String × String) := [("@positional-2", "language")]
/-- types.go:1807-1810 (quote and verse paragraphs). -/
def attributionTable : List (String × String) :=
  [("@positional-2", "quoteAuthor"), ("@positional-3", "quoteTitle")]
/-- types.go:2375-2379 (quote blocks). -/
def quoteTable : List (String × String) :=
  [("@positional-1", "style"), ("@positional-2", "quoteAuthor"), ("@positional-3", "quoteTitle")]
/-- types.go:2389-2393 (listing blocks). -/
def listingTable : List (String × String) :=
  [("@positional-1", "style"), ("@positional-2", "language"), ("@positional-3", "linenums")]
/-- types.go:2014-2018, 2066-2070 (images). -/
def imageTable : List (String × String) :=
  [("@positional-1", "alt"), ("@positional-2", "width"), ("@positional-3", "height")]
/-- types.go:1925 (external cross references). -/
def xrefTable : List (String × String) := [("@positional-1", "xrefLabel")]
/-- types.go:1968 (buttons). -/
def buttonTable : List (String × String) := [("@positional-1", "label")]
/-- types.go:2112 (icons). -/
def iconTable : List (String × String) := [("@positional-1", "size")]
/-- types.go:2804 (quoted text). -/
def quotedTextTable : List (String × String) := [("@positional-1", "roles")]
/-- types.go:2880 (links). -/
def linkTable : List (String × String) := [("@positional-1", "text")]
/-- types.go:3243 (file inclusions). -/
def includeTable : List (String × String) := [("tag", "tags")]

/-- All the mapping tables of the code. -/
def tables : List (List (String × String)) :=
  [styleTable, languageTable, attributionTable, quoteTable, listingTable, imageTable, xrefTable,
    buttonTable, iconTable, quotedTextTable, linkTable, includeTable]

/-- types.go:1797-1812 `Paragraph.mapAttributes`; `o1` and `o2` are the iteration orders of the second
table (`Source`; `Quote`/`Verse`). -/
def mapParagraph (o1 o2 : List (String × String)) (a : Attrs) : Attrs :=
  let a := mapped styleTable a
  match AMap.get a "style" with
  | some (.str s) =>
    if s = "source".toList then mapped o1 a
    else if s = "quote".toList ∨ s = "verse".toList then mapped o2 a
    else a
  | _ => a

/-- types.go:2009-2023 `NewImageBlock`, then types.go:2033-2035 `ImageBlock.AddAttributes` with the
attributes of the block. -/
def imageAttributes (order : List (String × String)) (inline block : Attrs) : Attrs :=
  addAll (mapped order (addAll [] inline)) block

/-- Equality of an option with a string key (attributes.go:484). -/
def AVal.isStr (s : Text) : AVal → Bool
  | .str t => decide (t = s)
  | _ => false

/-- attributes.go:480-496 `HasOption`. -/
def hasOption (a : Attrs) (key : String) : Bool :=
  ((asOptions (AMap.get a "options")).getD []).any (AVal.isStr key.toList) || (AMap.get a key).isSome

end EAttrs
end Verif
