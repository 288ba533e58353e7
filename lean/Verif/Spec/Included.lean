import Verif.Spec.Chosen
import Verif.Props.Ranges

/-!
Specification: documents with conditions and with other files included in them, nested to any depth, and the lines they amount to.
-/
namespace Verif
namespace Included
open C50 (NoEol Blanks Untouched Resets SimpleDeclaration)
open Chosen (keyword directive holds DirectiveOk)

/-- Which lines of a file are wanted: all of them; those of `lines=`, numbered from 1; or those of `tags=`. What is written for them, with or without quotes, stands for `ranges` and
`selectors`. -/
inductive Pick where
  | all
  | lines (quoted : Bool) (spec : Text) (ranges : List LineRange)
  | tags (quoted : Bool) (spec : Text) (selectors : List TagRange)

/-- What is written. `heading n title` is a title of level `n`; `fence` are parts between two lines of `count` characters `c`; `file` is `include::path[]`,
with `lines=`, `tags=` and `leveloffset=+n` in the brackets, for a file of the lines `all` of which the wanted ones are written in `parts`; `plain` is the same for a file that is not
AsciiDoc. The others are as in
`Chosen.Part`. -/
inductive Part where
  | line (l : Text)
  | heading (level : Nat) (title : Text)
  | declare (name l : Text)
  | reset (name l : Text)
  | when (positive : Bool) (name gap : Text) (parts : List Part) (again gap' : Text)
  | short (positive : Bool) (name content gap : Text)
  | fence (c : Char) (count : Nat) (gap : Text) (parts : List Part) (gap' : Text)
  | file (path : Text) (pick : Pick) (offset : Option Nat) (gap : Text) (all : List Text) (parts : List Part)
  | plain (path : Text) (pick : Pick) (gap : Text) (all lines : List Text)

/-- The line of a title. -/
def title (level : Nat) (t : Text) : Text := List.replicate (level + 1) '=' ++ ' ' :: t

/-- The line of a delimiter. -/
def delimiter (c : Char) (count : Nat) (gap : Text) : Text := List.replicate count c ++ gap

/-- The value of an attribute. -/
def value (quoted : Bool) (spec : Text) : Text := if quoted then '"' :: (spec ++ ['"']) else spec

/-- The attributes of the inclusion. -/
def Pick.written : Pick → List Text
  | .all => []
  | .lines q spec _ => ["lines=".toList ++ value q spec]
  | .tags q spec _ => ["tags=".toList ++ value q spec]
def offsetWritten : Option Nat → List Text
  | none => []
  | some n => ["leveloffset=+".toList ++ n.repr.toList]

/-- What is written in brackets: the attributes, separated by commas. -/
def option (pick : Pick) (offset : Option Nat) : Text := List.intercalate [','] (pick.written ++ offsetWritten offset)

/-- The line that includes a file. -/
def inclusion (path : Text) (pick : Pick) (offset : Option Nat) (gap : Text) : Text := "include::".toList ++ path ++ ['['] ++ option pick offset ++ [']'] ++ gap

mutual
/-- The lines as they are written in the file. -/
def Part.written : Part → List Text
  | .line l => [l]
  | .heading n t => [title n t]
  | .declare _ l => [l]
  | .reset _ l => [l]
  | .when p n g ps a g' => directive (keyword p) n [] g :: (written ps ++ [directive "endif::".toList a [] g'])
  | .short p n c g => [directive (keyword p) n c g]
  | .fence c k g ps g' => delimiter c k g :: (written ps ++ [delimiter c k g'])
  | .file p k o g _ _ => [inclusion p k o g]
  | .plain p k g _ _ => [inclusion p k none g]
def written : List Part → List Text
  | [] => []
  | p :: ps => p.written ++ written ps
end

mutual
/-- The attributes that are set after a part, if those in `set` are before it: what an included file declares counts only in this file, and in those it includes. -/
def Part.after (set : List Text) : Part → List Text
  | .declare n _ => n :: set
  | .reset n _ => set.filter (· ≠ n)
  | .when _ _ _ ps _ _ => after set ps
  | .fence _ _ _ ps _ => after set ps
  | _ => set
def after (set : List Text) : List Part → List Text
  | [] => set
  | p :: ps => after (p.after set) ps
end

/-- An included file of no lines amounts to a blank line. -/
def atLeastOne : List Text → List Text
  | [] => [[]]
  | ls => ls

mutual
/-- The lines that a document amounts to, if the attributes `given` are given by the caller, those in `set` are set by the lines before, and titles are moved down by
`shift` levels. -/
def Part.lines (given : Text → Bool) (set : List Text) (shift : Nat) : Part → List Text
  | .line l => [l]
  | .heading n t => [title (n + shift) t]
  | .declare _ l => [l]
  | .reset _ l => [l]
  | .when p n _ ps _ _ => if holds given set p n then lines given set shift ps else []
  | .short p n c _ => if holds given set p n then [c] else []
  | .fence c k g ps g' => delimiter c k g :: (lines given set shift ps ++ [delimiter c k g'])
  | .file _ _ o _ _ ps => atLeastOne (lines given set (shift + o.getD 0) ps)
  | .plain _ _ _ _ ls => ls ++ [[]]
def lines (given : Text → Bool) (set : List Text) (shift : Nat) : List Part → List Text
  | [] => []
  | p :: ps => p.lines given set shift ++ lines given (p.after set) shift ps
end

mutual
/-- How deep files are included. -/
def Part.depth : Part → Nat
  | .when _ _ _ ps _ _ => depth ps
  | .fence _ _ _ ps _ => depth ps
  | .file _ _ _ _ _ ps => depth ps + 1
  | _ => 0
def depth : List Part → Nat
  | [] => 0
  | p :: ps => max p.depth (depth ps)
end

/-- How blocks begin. -/
def fences : List Text := ["////".toList, "====".toList, "```".toList, "----".toList, "....".toList, "++++".toList, "____".toList, "****".toList]

/-- A line that can be included: no directive; not the delimiter of a block; no declaration; and, outside of blocks, no title. -/
structure LineOk (inside : Bool) (l : Text) : Prop where
  untouched : Untouched l
  colon : l.head? ≠ some ':'
  fence : ∀ f ∈ fences, ¬ f <+: l
  equals : inside = false → l.head? ≠ some '='

open Classical in
/-- The lines of a file that are wanted, but never those with the tags of regions, like `tag::name[]`: all of them; those in one of the ranges; those for which the last of the selectors
that apply is not an exclusion. -/
noncomputable def picked (alnum : Char → Bool) : Pick → List Text → List Text
  | .all, ls => ls.filter (fun l => decide (¬ C03.HasMacro alnum l))
  | .lines _ _ rs, ls => ((C03.numbered ls).filter (fun p => decide (¬ C03.HasMacro alnum p.1 ∧ ∃ r ∈ rs, C03.InRange r p.2))).map Prod.fst
  | .tags _ _ sel, ls =>
    ((ls.zip ((ls.inits.drop 1).map (C04.events alnum))).filter (fun p => decide (¬ C03.HasMacro alnum p.1 ∧ C04.Selected sel p.2))).map Prod.fst

/-- A value that can be written: no spaces, brackets, braces, quotes; and no commas if it is without quotes. -/
def Writable (quoted : Bool) (spec : Text) : Prop :=
  spec ≠ [] ∧ (∀ c ∈ spec, c ∉ ['=', ']', '[', '{', ' ', '\t', '\r', '\n', '\'', '"', '\\', '`']) ∧ (quoted = false → ',' ∉ spec)

/-- The directive can be written: the path has no spaces, brackets and braces. -/
structure InclusionOk (p : Text) (k : Pick) (o : Option Nat) (g : Text) : Prop where
  path : p ≠ [] ∧ ∀ c ∈ p, c ∉ ['\r', '\n', '[', ']', '\ufffd', '{', '<', '>', ' ', '\t']
  lines : ∀ q spec rs, k = .lines q spec rs → Writable q spec
  tags : ∀ q spec sel, k = .tags q spec sel → Writable q spec
  offset : ∀ n, o = some n → n ≤ 9
  gap : Blanks g
  short : utf8Len (inclusion p k o g) ≤ 65535

/-- The wanted lines of a file can be found: the value stands for the ranges, or for the selectors; the selectors are not `!**`; every `end::name[]` of the file is after a `tag::name[]`;
and every tag that is named is in the file. -/
def Pick.Ok (alnum : Char → Bool) (all : List Text) : Pick → Prop
  | .all => True
  | .lines _ spec rs => C39.ListText C39.RangeText rs spec
  | .tags _ spec sel => C39.ListText (C39.TagText alnum) sel spec ∧ (∀ t ∈ sel, t.name = ['*', '*'] → t.included = true) ∧ C04.StopsStarted (C04.events alnum all) ∧
    ¬ C04.Missing alnum sel all

/-- The file contains the lines, of at most 65535 bytes each; and the wanted ones are those that are given. -/
structure Contains (env : Env) (file : Text) (k : Pick) (all wanted : List Text) : Prop where
  content : env.fs file = some (unlines all)
  lines : ∀ l ∈ all, NoEol l ∧ utf8Len l ≤ 65535
  pick : k.Ok env.alnum all
  wanted : picked env.alnum k all = wanted

mutual
/-- In the file `name`, inside a block or not: lines are what they say they are, and the files that are included contain what is written in their parts. -/
def Part.Ok (env : Env) (alnum : Char → Bool) (name : Text) (inside : Bool) : Part → Prop
  | .line l => LineOk inside l
  | .heading n t => inside = false ∧ n ≤ 5 ∧ (∃ c r, t = c :: r ∧ c ≠ ' ' ∧ c ≠ '\t') ∧ NoEol t ∧ utf8Len (title n t) ≤ 65535
  | .declare n l => Untouched l ∧ SimpleDeclaration alnum n l
  | .reset n l => Untouched l ∧ Resets alnum n l
  | .when p n g ps a g' => n ≠ [] ∧ DirectiveOk (keyword p) n [] g ∧ Ok env alnum name inside ps ∧ DirectiveOk "endif::".toList a [] g'
  | .short p n c g => n ≠ [] ∧ c ≠ [] ∧ DirectiveOk (keyword p) n c g
  | .fence c k g ps g' => inside = false ∧ (∃ m kind, (c, m, kind) ∈ C50.table ∧ m ≤ k) ∧ Blanks g ∧ Blanks g' ∧ utf8Len (delimiter c k g) ≤ 65535 ∧
    utf8Len (delimiter c k g') ≤ 65535 ∧ Ok env alnum name true ps
  | .file p k o g all ps => InclusionOk p k o g ∧ isAsciidoc (env.resolve name p) = true ∧ Contains env (env.resolve name p) k all (written ps) ∧
    Ok env alnum (env.resolve name p) inside ps
  | .plain p k g all ls => InclusionOk p k none g ∧ isAsciidoc (env.resolve name p) = false ∧ Contains env (env.resolve name p) k all ls
def Ok (env : Env) (alnum : Char → Bool) (name : Text) (inside : Bool) : List Part → Prop
  | [] => True
  | p :: ps => p.Ok env alnum name inside ∧ Ok env alnum name inside ps
end

end Included
end Verif
