import Verif.Model.Substitute
import Verif.Props.AttrRefs
/-!
Specification for C23: the places of a document where something is substituted, in reading order, and the values that attributes
have at each of them.
-/
namespace Verif.C23.Doc
open Verif.Walk
open Verif.AttrRefs (CVal)
open Verif.C24 (Occ shown)

/-- A place of a document where something is substituted (or that has an effect on attributes), with what is there before (plain
names) and after (primed names). `nested` tells whether the element is inside another one. -/
inductive Site where
  /-- the front matter -/
  | front (a : Attrs)
  /-- `:n: v` -/
  | declare (n : String) (v v' : Any)
  /-- `:!n:` -/
  | reset (n : String)
  /-- the author and revision lines, which are elements of the header -/
  | info (es' : List Any)
  /-- the title of the document, with attributes -/
  | heading (a a' : Attrs) (t t' : List Any)
  /-- the title of a section, with attributes -/
  | section (a a' : Attrs) (t t' : List Any)
  /-- the attributes of a block, list or table that consists of other elements -/
  | attrs (nested : Bool) (b : Option Subs.Block) (a a' : Attrs)
  /-- a paragraph -/
  | paragraph (nested : Bool) (a a' : Attrs) (es es' : List Any)
  /-- a delimited block whose content is text -/
  | verbatim (nested : Bool) (k : Kind) (a a' : Attrs) (es es' : List Any)
  /-- the term of a labeled list, with attributes -/
  | term (nested : Bool) (a a' : Attrs) (t t' : List Any)
  /-- a block macro with a location (an image) -/
  | located (nested : Bool) (n : Nat) (a a' : Attrs) (l l' : Option Any)

/-! ### Values of attributes -/

/-- What a place does to the attributes, in order: set to a value, or not set. -/
def Site.assigns : Site → List (String × Option Any)
  | .front a => a.map (fun p : String × Any => (p.1, some p.2))
  | .declare n _ v' => [(n, some v')]
  | .reset n => [(n, none)]
  | .info es' =>
    ((match authorsOf es' none with
      | .ok (some l) => expandAuthors l
      | _ => []) ++
     (match revisionOf es' with
      | some (n, d, r) => expandRevision n d r
      | none => [])).map (fun p : String × Any => (p.1, some p.2))
  | _ => []

/-- The last assignment to an attribute. -/
def lastOf (k : String) (l : List (String × Option Any)) : Option Any :=
  l.foldl (fun cur p => if p.1 = k then p.2 else cur) none

/-- The value of an attribute after the places `done`: the one given through the API, or else the one assigned last. -/
def valueAt (api : AMap Any) (done : List Site) (k : String) : Option Any :=
  match AMap.get api k with
  | some v => some v
  | none => lastOf k (done.flatMap Site.assigns)

/-- Whether the experimental macros are enabled after the places `done`: as the last declaration or reset says. -/
def experimentalAt (done : List Site) : Bool :=
  done.foldl (fun cur s => match s with
    | .declare n _ _ => if n = "experimental" then true else cur
    | .reset n => if n = "experimental" then false else cur
    | _ => cur) false

/-! ### Values -/

/-- What a reference `{name}` stands for, where `get` gives the values of the attributes: itself, if the attribute is not set;
the full name of an author; formatted values as plain text; otherwise the value. -/
inductive Denotes (W : World) (get : String → Option Any) (name : String) : Any → Prop
  | unset : get name = none → Denotes W get name (.text ("{".toList ++ name.toList ++ "}".toList))
  | formatted {es t} : get name = some (.slice es) → W.plainText es = some t → Denotes W get name (.text t)
  | author {f m l} : get name = some (.fullName f m l) → Denotes W get name (.text (fullNameText f m l))
  | value {v} : get name = some v → (∀ es, v ≠ .slice es) → (∀ f m l, v ≠ .fullName f m l) → Denotes W get name v

mutual
/-- An item of a value in pieces, with the references replaced. -/
inductive Item (W : World) (get : String → Option Any) : Any → Any → Prop
  | text {t} : Item W get (.str t) (.text t)
  | ref {n v} : Denotes W get n v → Item W get (.ref n) v
  | slice {es l} : Items W get es l → Item W get (.slice es) (reduce l)
  | other {e} : (∀ t, e ≠ .str t) → (∀ n, e ≠ .ref n) → (∀ es, e ≠ .slice es) → Item W get e e
/-- The same for all items. -/
inductive Items (W : World) (get : String → Option Any) : List Any → List Any → Prop
  | nil : Items W get [] []
  | cons {e v es l} : Item W get e v → Items W get es l → Items W get (e :: es) (v :: l)
end

mutual
/-- A value with the references replaced: pieces are put together, roles and options are treated one by one, other values stay. -/
inductive Value (W : World) (get : String → Option Any) : Any → Any → Prop
  | pieces {es l} : Items W get es l → Value W get (.slice es) (reduce l)
  | roles {l l'} : Values W get l l' → Value W get (.roles l) (.roles l')
  | options {l l'} : Values W get l l' → Value W get (.options l) (.options l')
  | other {v} : (∀ es, v ≠ .slice es) → (∀ l, v ≠ .roles l) → (∀ l, v ≠ .options l) → Value W get v v
/-- The same for all values. -/
inductive Values (W : World) (get : String → Option Any) : List Any → List Any → Prop
  | nil : Values W get [] []
  | cons {v v' l l'} : Value W get v v' → Values W get l l' → Values W get (v :: l) (v' :: l')
end

/-- All attributes of an element, with the references in their values replaced. -/
inductive AttrValues (W : World) (get : String → Option Any) : Attrs → Attrs → Prop
  | nil : AttrValues W get [] []
  | cons {k v v' a a'} : Value W get v v' → AttrValues W get a a' → AttrValues W get ((k, v) :: a) ((k, v') :: a')

/-! ### Parsing again -/

/-- Elements that are written as text. -/
def written : Any → Option Text
  | .raw t | .text t | .str t | .special t => some t
  | _ => none

/-- The mark of the `k`-th element that is not text. -/
def mark (k : Nat) : Text := '\uFFFD' :: (toString k).toList ++ ['\uFFFD']

/-- Elements as a text with marks, where `n` marks come before, and the elements that are marked. -/
inductive Marked : Nat → List Any → Text → List Any → Prop
  | nil {n} : Marked n [] [] []
  | text {n e x es t l} : written e = some x → Marked n es t l → Marked n (e :: es) (x ++ t) l
  | other {n e es t l} : written e = none → Marked (n + 1) es t l → Marked n (e :: es) (mark (n + 1) ++ t) (e :: l)

/-- Elements in which marks have no place: those without elements, and those whose elements cannot be replaced. -/
def solid : Any → Bool
  | .holder _ | .group _ _ _ | .paragraph _ _ | .block _ _ _ | .labeled _ _ _ _ | .cell _ _ | .header _ _ _ | .table _ _ _ _ => false
  | _ => true

mutual
/-- An element with the marks in it, at any depth, replaced by the elements `l` that they stand for (nil, if there is none). -/
inductive Filled (l : List Any) : Any → Any → Prop
  | mark {k x} : l[k]? = some x → Filled l (.holder (toString (k + 1)).toList) x
  | stray {r} : (∀ k, k < l.length → r ≠ (toString (k + 1)).toList) → Filled l (.holder r) .nil
  | group {n a es es'} : FilledAll l es es' → Filled l (.group n a es) (.group n a es')
  | paragraph {a es es'} : FilledAll l es es' → Filled l (.paragraph a es) (.paragraph a es')
  | block {k a es es'} : FilledAll l es es' → Filled l (.block k a es) (.block k a es')
  | labeled {n a t es es'} : FilledAll l es es' → Filled l (.labeled n a t es) (.labeled n a t es')
  | cell {f es es'} : FilledAll l es es' → Filled l (.cell f es) (.cell f es')
  | header {a t es es'} : FilledAll l es es' → Filled l (.header a t es) (.header a t es')
  | table {a h f rows rows'} : FilledRows l rows rows' → Filled l (.table a h rows f) (.table a h rows' f)
  | solid {e} : solid e = true → Filled l e e
/-- The same for all elements. -/
inductive FilledAll (l : List Any) : List Any → List Any → Prop
  | nil : FilledAll l [] []
  | cons {e e' es es'} : Filled l e e' → FilledAll l es es' → FilledAll l (e :: es) (e' :: es')
/-- The same for the rows of a table. -/
inductive FilledRows (l : List Any) : List (List Any) → List (List Any) → Prop
  | nil : FilledRows l [] []
  | cons {r r' rs rs'} : FilledAll l r r' → FilledRows l rs rs' → FilledRows l (r :: rs) (r' :: rs')
end

/-- Content as a text with marks. -/
inductive Serialized : Any → Text → List Any → Prop
  | text {t} : Serialized (.text t) t []
  | slice {es t l} : Marked 0 es t l → Serialized (.slice es) t l

/-- Content parsed with the given settings: what is not text is replaced by a mark before and put back afterwards. Nothing is parsed
to nothing. -/
inductive Parsed (W : World) (s : Settings) (content : Any) : List Any → Prop
  | nothing {l} : Serialized content [] l → Parsed W s content []
  | some {t l es es'} : Serialized content t l → t ≠ [] → W.parse s t = some es → FilledAll l es es' → Parsed W s content es'

/-- A title without the spaces at its end; a last part of only spaces is dropped. -/
inductive Trimmed : List Any → List Any → Prop
  | spaces {es n} : Trimmed (es ++ [.str (List.replicate n ' ')]) es
  | text {es t c n} : c ≠ ' ' → Trimmed (es ++ [.str (t ++ c :: List.replicate n ' ')]) (es ++ [.str (t ++ [c])])
  | other {es} : (∀ t, es.getLast? ≠ some (.str t)) → Trimmed es es

/-- Setting the title of a section: an id at its end becomes an attribute of the section. -/
inductive TitleSet (W : World) (a : Attrs) : List Any → Attrs → List Any → Prop
  | id {es v es'} : Trimmed es es' → TitleSet W a (es ++ [.anchor v]) (AMap.set a "id" (.text (stringify W v))) es'
  | plain {es es' e} : es.getLast? = some e → (∀ v, e ≠ .anchor v) → Trimmed es es' → TitleSet W a es a es'

/-- The rule for values with markup: the one for such values in elements at the top of the document, the one for paragraphs in
elements inside others. -/
def valueRule (nested : Bool) : Entry := if nested then .normalGroup else .attributeStructuredValue

/-- What becomes of a value (with the references replaced) of attribute `k`, where `exp` tells whether the experimental macros are
enabled: titles and labels may have any markup, the text of a link all but macros; column definitions are parsed as such. -/
def Formatted (W : World) (exp nested : Bool) (k : String) (v v' : Any) : Prop :=
  if k = "title" ∨ k = "xrefLabel" then
    ∃ es, Parsed W ⟨valueRule nested, true, [.passthroughs, .attributes, .specialchars, .quotes, .replacements, .macros], exp⟩ v es ∧
      v' = reduce es
  else if k = "text" then
    ∃ es, Parsed W ⟨valueRule nested, true, [.passthroughs, .attributes, .specialchars, .quotes, .replacements], exp⟩ v es ∧
      v' = reduce es
  else if k = "cols" then
    ∃ t es, plainSerialized v = some t ∧
      Parsed W ⟨if nested then .normalGroup else .tableColumnsAttribute, true,
        [.passthroughs, .attributes, .specialchars, .quotes, .replacements], exp⟩ (.text t) es ∧ v' = reduce es
  else v' = v

/-- The attributes of a block before and after: the same keys, the values with references replaced and formatted. -/
inductive AttrsAfter (W : World) (get : String → Option Any) (exp nested : Bool) : Attrs → Attrs → Prop
  | nil : AttrsAfter W get exp nested [] []
  | cons {k v r v' a a'} : Value W get v r → Formatted W exp nested k r v' → AttrsAfter W get exp nested a a' →
      AttrsAfter W get exp nested ((k, v) :: a) ((k, v') :: a')

/-! ### Content -/

/-- The element a value is in content. -/
def element : Any → Any
  | .text t => .str t
  | v => v

/-- The path of a location, where `h` are the occurrences of counters before, and with the occurrences in it. -/
inductive Path (W : World) (get : String → Option Any) : List Occ → List Any → List Any → List Occ → Prop
  | nil {h} : Path W get h [] [] []
  | ref {h n v es es' o} : Denotes W get n v → Path W get h es es' o → Path W get h (.ref n :: es) (element v :: es') o
  | counter {h n s hid es es' o} : Path W get (h ++ [⟨n, s, hid⟩]) es es' o →
      Path W get h (.counter n s hid :: es) (.str (shown h ⟨n, s, hid⟩) :: es') (⟨n, s, hid⟩ :: o)
  | other {h e es es' o} : (∀ n, e ≠ .ref n) → (∀ n s hid, e ≠ .counter n s hid) → Path W get h es es' o →
      Path W get h (e :: es) (e :: es') o

/-- A location: a path in pieces is put together, others stay. -/
inductive Location (W : World) (get : String → Option Any) (h : List Occ) : Option Any → Option Any → List Occ → Prop
  | pieces {es es' o} : Path W get h es es' o → Location W get h (some (.slice es)) (some (reduce es')) o
  | other {l} : (∀ es, l ≠ some (.slice es)) → Location W get h l l []

/-- A reference to an attribute that is set. -/
def isSet (get : String → Option Any) : Any → Bool
  | .ref n => (get n).isSome
  | _ => false

/-- The second phase: if a reference among `es` was replaced and substitutions are left (`later`), the result `mid` of the
replacement is parsed again with these. -/
def Again (W : World) (get : String → Option Any) (later : Option (List Subs.Sub)) (es mid out : List Any) : Prop :=
  match later with
  | some subs => if es.any (isSet get) then Parsed W ⟨.normalGroup, false, subs, false⟩ (.slice mid) out else out = mid
  | none => out = mid

/-- Inline elements in which nothing is replaced. -/
def fixed : Any → Bool
  | .ref _ | .counter _ _ _ | .group _ _ _ | .located _ _ _ => false
  | _ => true

mutual
/-- An inline element with references and counters replaced; `h` are the occurrences of counters before it, the last argument those
in it. -/
inductive Inline (W : World) (get : String → Option Any) (later : Option (List Subs.Sub)) : List Occ → Any → Any → List Occ → Prop
  | ref {h n v} : Denotes W get n v → Inline W get later h (.ref n) (element v) []
  | counter {h n s hid} : Inline W get later h (.counter n s hid) (.str (shown h ⟨n, s, hid⟩)) [⟨n, s, hid⟩]
  | group {h n a a' es mid es' o} : AttrValues W get a a' → Inlines W get later h es mid o → Again W get later es mid es' →
      Inline W get later h (.group n a es) (.group n a' es') o
  | located {h n a a' l l' o} : AttrValues W get a a' → Location W get h l l' o →
      Inline W get later h (.located n a l) (.located n a' l') o
  | other {h e} : fixed e = true → Inline W get later h e e []
/-- The same for a sequence of inline elements. -/
inductive Inlines (W : World) (get : String → Option Any) (later : Option (List Subs.Sub)) :
    List Occ → List Any → List Any → List Occ → Prop
  | nil {h} : Inlines W get later h [] [] []
  | cons {h e e' es es' o o'} : Inline W get later h e e' o → Inlines W get later (h ++ o) es es' o' →
      Inlines W get later h (e :: es) (e' :: es') (o ++ o')
end

/-- The substitutions after that of attribute references, if there are any (after the last one that is not at the end). -/
def later (subs : List Subs.Sub) : Option (List Subs.Sub) :=
  if .attributes ∈ subs.dropLast then
    some ((subs.dropLast.reverse.takeWhile (· != .attributes)).reverse ++ subs.getLast?.toList)
  else none

/-- Content with references and counters replaced, and parsed again if needed. -/
def Replaced (W : World) (get : String → Option Any) (subs : List Subs.Sub) (h : List Occ) (es es' : List Any) (o : List Occ) : Prop :=
  ∃ mid, Inlines W get (later subs) h es mid o ∧ Again W get (later subs) es mid es'

/-- The content of a block: parsed with the substitutions of the block; then, if the substitution of attribute references is
among these, references and counters are replaced. -/
def ContentAfter (W : World) (get : String → Option Any) (exp : Bool) (subs : List Subs.Sub) (h : List Occ) (es es' : List Any)
    (o : List Occ) : Prop :=
  if es = [] then es' = [] ∧ o = []
  else ∃ mid, Parsed W ⟨.normalGroup, true, subs, exp⟩ (.slice es) mid ∧
    if .attributes ∈ subs then Replaced W get subs h mid es' o else es' = mid ∧ o = []

/-! ### Attributes of inline elements in paragraphs -/

/-- Titles, labels and texts of links of inline elements are parsed once more, with the substitutions of the paragraph; the text of
a link removes the macros, from there on. -/
inductive InlineAttrs (W : World) (exp : Bool) : List Subs.Sub → Attrs → Attrs → List Subs.Sub → Prop
  | nil {s} : InlineAttrs W exp s [] [] s
  | title {s k v es a a' s'} : k = "title" ∨ k = "xrefLabel" → Parsed W ⟨.attributeStructuredValue, true, s, exp⟩ v es →
      InlineAttrs W exp s a a' s' → InlineAttrs W exp s ((k, v) :: a) ((k, reduce es) :: a') s'
  | text {s v es a a' s'} : Parsed W ⟨.attributeStructuredValue, true, s.filter (· != .macros), exp⟩ v es →
      InlineAttrs W exp (s.filter (· != .macros)) a a' s' → InlineAttrs W exp s (("text", v) :: a) (("text", reduce es) :: a') s'
  | other {s k v a a' s'} : k ≠ "title" → k ≠ "xrefLabel" → k ≠ "text" → InlineAttrs W exp s a a' s' →
      InlineAttrs W exp s ((k, v) :: a) ((k, v) :: a') s'

/-- Inline elements with attributes. -/
def attributed : Any → Bool
  | .group _ _ _ | .located _ _ _ => true
  | _ => false

mutual
/-- The same for an inline element. -/
inductive Once (W : World) (exp : Bool) : List Subs.Sub → Any → Any → List Subs.Sub → Prop
  | group {s n a a' s1 es es' s2} : InlineAttrs W exp s a a' s1 → Onces W exp s1 es es' s2 →
      Once W exp s (.group n a es) (.group n a' es') s2
  | located {s n a a' l s1} : InlineAttrs W exp s a a' s1 → Once W exp s (.located n a l) (.located n a' l) s1
  | other {s e} : attributed e = false → Once W exp s e e s
/-- The same for inline elements. -/
inductive Onces (W : World) (exp : Bool) : List Subs.Sub → List Any → List Any → List Subs.Sub → Prop
  | nil {s} : Onces W exp s [] [] s
  | cons {s e e' s1 es es' s2} : Once W exp s e e' s1 → Onces W exp s1 es es' s2 → Onces W exp s (e :: es) (e' :: es') s2
end

/-! ### What is at a place afterwards -/

/-- What is at a place after the substitution, where `get` gives the values of the attributes, `exp` tells whether experimental
macros are enabled, `h` are the occurrences of counters before and `o` those at the place. -/
def Site.After (W : World) (get : String → Option Any) (exp : Bool) (h o : List Occ) : Site → Prop
  | .front _ => o = []
  | .declare _ v v' => Value W get v v' ∧ o = []
  | .reset _ => o = []
  | .info _ => o = []
  | .heading a a' t t' => AttrsAfter W get exp false a a' ∧ Replaced W get Subs.header h t t' o
  | .section a a' t t' => ∃ a1 t1, AttrsAfter W get exp false a a1 ∧ Replaced W get Subs.header h t t1 o ∧
      TitleSet W a1 t1 a' t'
  | .attrs nested b a a' => AttrsAfter W get exp nested a a' ∧ (∀ b', b = some b' → ∃ subs, subsFor b' a' = .ok subs) ∧ o = []
  | .paragraph nested a a' es es' => AttrsAfter W get exp nested a a' ∧
      ∃ subs mid last, subsFor (paragraphOf (getTextD W a' "style")) a' = .ok subs ∧
        ContentAfter W get exp subs h es mid o ∧ Onces W exp subs mid es' last
  | .verbatim nested k a a' es es' => ∃ a1 subs, AttrsAfter W get exp nested a a1 ∧ subsFor (blockOf k) a1 = .ok subs ∧
      if k = .markdownQuote ∧ (splitAttribution W es).2 ≠ [] then
        a' = AMap.set a1 "quoteAuthor" (.text (splitAttribution W es).2) ∧
          ContentAfter W get exp subs h (splitAttribution W es).1 es' o
      else a' = a1 ∧ ContentAfter W get exp subs h (if k = .markdownQuote then (splitAttribution W es).1 else es) es' o
  | .term nested a a' t t' => AttrsAfter W get exp nested a a' ∧
      ∃ subs, subsFor .other a' = .ok subs ∧ ContentAfter W get exp subs h t t' o
  | .located nested _ a a' l l' => AttrsAfter W get exp nested a a' ∧ Location W get h l l' o

/-- Every place is substituted with the values that the places before it (`done`) leave, and with the counters after the
occurrences before it (`h`). -/
def Followed (W : World) (api : AMap Any) : List Site → List Occ → List Site → Prop
  | _, _, [] => True
  | done, h, s :: ss => ∃ o, s.After W (valueAt api done) (experimentalAt done) h o ∧ Followed W api (done ++ [s]) (h ++ o) ss

/-! ### The places of a document -/

/-- The delimited blocks whose elements are blocks. -/
def Compound (k : Kind) : Prop := k = .example_ ∨ k = .quote ∨ k = .sidebar ∨ k = .open_

/-- The elements without a place where something is substituted. -/
def inert : Any → Bool
  | .frontMatter _ | .declare _ _ | .reset _ | .header _ _ _ | .section _ _ _ | .continuation _ _ | .labeled _ _ _ _
  | .block _ _ _ | .paragraph _ _ | .group _ _ _ | .cell _ _ | .located _ _ _ | .table _ _ _ _ => false
  | _ => true

mutual
/-- The places of an element, before and after, in reading order; `none` if the element afterwards is not of the same kind and
structure. Elements without places stay what they are. -/
inductive Places : Bool → Any → Any → List Site → Prop
  | front {n a} : Places n (.frontMatter a) (.frontMatter a) [.front a]
  | declare {n k v v'} : Places n (.declare k v) (.declare k v') [.declare k v v']
  | reset {n k} : Places n (.reset k) (.reset k) [.reset k]
  | header {n a a' t t' es es' l} : PlacesAll n es es' l →
      Places n (.header a t es) (.header a' t' es') (l ++ [.info es', .heading a a' t t'])
  | section {n lv a a' t t'} : Places n (.section lv a t) (.section lv a' t') [.section a a' t t']
  | continuation {n o e e' l} : Places n e e' l → Places n (.continuation o e) (.continuation o e') l
  | labeled {n s a a' t t' es es' l} : PlacesAll true es es' l →
      Places n (.labeled s a t es) (.labeled s a' t' es') (.term n a a' t t' :: l)
  | compound {n k a a' es es' l} : Compound k → PlacesAll true es es' l →
      Places n (.block k a es) (.block k a' es') (.attrs n (some (blockOf k)) a a' :: l)
  | verbatim {n k a a' es es'} : ¬ Compound k →
      Places n (.block k a es) (.block k a' es') [.verbatim n k a a' es es']
  | paragraph {n a a' es es'} : Places n (.paragraph a es) (.paragraph a' es') [.paragraph n a a' es es']
  | group {n g a a' es es' l} : PlacesAll true es es' l →
      Places n (.group g a es) (.group g a' es') (.attrs n (some .other) a a' :: l)
  | cell {n f es es' l} : PlacesAll true es es' l → Places n (.cell f es) (.cell f es') l
  | located {n m a a' p p'} : Places n (.located m a p) (.located m a' p') [.located n m a a' p p']
  | table {n a a' h h' rows rows' f f' l} :
      PlacesCells n (h'.getD []).length (h.getD [] ++ rows.flatten ++ f.getD []) (h'.getD [] ++ rows'.flatten ++ f'.getD []) l →
      Places n (.table a h rows f) (.table a' h' rows' f') (.attrs false none a a' :: l)
  | other {n e} : inert e = true → Places n e e []
/-- The same for a sequence of elements. -/
inductive PlacesAll : Bool → List Any → List Any → List Site → Prop
  | nil {n} : PlacesAll n [] [] []
  | cons {n e e' es es' l l'} : Places n e e' l → PlacesAll n es es' l' → PlacesAll n (e :: es) (e' :: es') (l ++ l')
/-- The same for the cells of a table, the first `m` of which are those of the header: they are substituted only if there is just a
paragraph. -/
inductive PlacesCells : Bool → Nat → List Any → List Any → List Site → Prop
  | nil {n m} : PlacesCells n m [] [] []
  | head {n m f a a' p p' cs cs' l} : PlacesCells n m cs cs' l →
      PlacesCells n (m + 1) (.cell f [.paragraph a p] :: cs) (.cell f [.paragraph a' p'] :: cs') (.paragraph n a a' p p' :: l)
  | stray {n m e cs cs' l} : (∀ f es, e ≠ .cell f es) → PlacesCells n (m - 1) cs cs' l → PlacesCells n m (e :: cs) (e :: cs') l
  | skip {n m f es cs cs' l} : (∀ a p, es ≠ [.paragraph a p]) → PlacesCells n m cs cs' l →
      PlacesCells n (m + 1) (.cell f es :: cs) (.cell f es :: cs') l
  | body {n f es es' cs cs' l l'} : PlacesAll true es es' l → PlacesCells n 0 cs cs' l' →
      PlacesCells n 0 (.cell f es :: cs) (.cell f es' :: cs') (l ++ l')
end

end Verif.C23.Doc
