import Verif.Model.Basic
/-!
Model of the Go standard library's `bufio.Scanner` with its default `ScanLines` split function, as
used by pkg/parser/document_preprocessing.go lines 33-36 and 225-226.  (stdlib, part of the trusted
base: tokens are LF-terminated lines with one trailing CR dropped, no token for an empty remainder
at EOF, and a line whose bytes do not fit in a 64KiB buffer stops the scan with `ErrTooLong`.)
-/
namespace Verif

/-- Go stdlib bufio.MaxScanTokenSize: a full 64KiB buffer without a newline is an error, so the
longest line (without its LF, but with its CR) has 65535 bytes. -/
def maxLineBytes : Nat := 65535

/-- Number of bytes of a text in UTF-8. -/
def utf8Len (t : Text) : Nat := (t.map Char.utf8Size).sum

/-- Split at every LF (the last item is what follows the last LF). Go: bytes.IndexByte(data, '\n')
in bufio.ScanLines. -/
def splitNL : Text → List Text
  | [] => [[]]
  | c :: cs =>
    if c = '\n' then [] :: splitNL cs
    else match splitNL cs with
      | [] => [[c]]
      | l :: ls => (c :: l) :: ls

/-- Go bufio.ScanLines at EOF: an empty remainder yields no token. -/
def dropLastEmpty : List Text → List Text
  | [] => []
  | [[]] => []
  | l :: ls => l :: dropLastEmpty ls

/-- Go bufio.dropCR: one trailing CR is dropped. -/
def dropCR : Text → Text
  | [] => []
  | [c] => if c = '\r' then [] else [c]
  | c :: c' :: cs => c :: dropCR (c' :: cs)

/-- The physical lines of a source, CR still included. -/
def physLines (t : Text) : List Text := dropLastEmpty (splitNL t)

/-- Does the line fit in the scanner's buffer? -/
def fits (l : Text) : Bool := decide (utf8Len l ≤ maxLineBytes)

/-- The lines delivered by `for scanner.Scan()`: everything before the first over-long line. -/
def scanLines (t : Text) : List Text := ((physLines t).takeWhile fits).map dropCR

/-- `scanner.Err() != nil` after the loop. -/
def scanErr (t : Text) : Bool := (physLines t).any (fun l => !fits l)

end Verif
