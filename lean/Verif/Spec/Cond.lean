import Verif.Spec.Text
/-
Conditional requests (RFC 7232).
-/
namespace Verif.Spec

/-- A byte of an opaque tag: visible or beyond ASCII, not the double quote. -/
def TagByte (c : UInt8) : Prop := c = 0x21 ∨ (0x23 ≤ c ∧ c ≤ 0x7E) ∨ 0x80 ≤ c

/-- An entity tag: weak or not, and its text. -/
structure ETag where
  weak : Bool
  text : Str
  deriving DecidableEq, Repr

/-- It is written `"text"` or `W/"text"`. -/
def ETag.written (e : ETag) : Str := (if e.weak then b!"W/" else []) ++ (34 :: e.text ++ [34])

/-- All bytes of the text are allowed. -/
def ETag.Valid (e : ETag) : Prop := ∀ c ∈ e.text, TagByte c

/-- White space and commas. -/
def Separators (s : Str) : Prop := ∀ c ∈ s, Space c ∨ c = 44

/-- An entry of a list of entity tags. -/
inductive Entry where
  | star
  | tag (e : ETag)

/-- What is read from the text of an If-Match or If-None-Match header: the tags (separated by white space and commas, or
nothing) up to the first '*' or the first text that is neither. -/
inductive Lists : Str → Entry → Prop
  | star {sep rest : Str} : Separators sep → Lists (sep ++ 42 :: rest) .star
  | here {sep rest : Str} {e : ETag} : Separators sep → e.Valid → Lists (sep ++ e.written ++ rest) (.tag e)
  | later {sep rest : Str} {e : ETag} {x : Entry} : Separators sep → e.Valid → Lists rest x →
      Lists (sep ++ e.written ++ rest) x

/-- The strong comparison with the tag of the content. -/
def Strong (a b : ETag) : Prop := a = b ∧ a.weak = false

/-- The weak comparison. -/
def Weak (a b : ETag) : Prop := a.text = b.text

/-- The tag of the content, from its text in the response headers. -/
def HasTag (text : Str) (e : ETag) : Prop := text = e.written ∧ e.Valid

/-- The list contains '*' or a tag that compares equal to the tag of the content. -/
def AnyMatch (same : ETag → ETag → Prop) (list etag : Str) : Prop :=
  Lists list .star ∨ ∃ e e', Lists list (.tag e) ∧ HasTag etag e' ∧ same e e'

/-- What a conditional request says, and what is known about the content. Absent headers are empty. -/
structure Question where
  method : Str
  ifMatch : Str
  ifUnmodifiedSince : Str
  ifNoneMatch : Str
  ifModifiedSince : Str
  ifRange : Str
  etag : Str
  modTime : Int
  date : Str → Option Int

namespace Question
variable (q : Question)

/-- GET or HEAD. -/
def Safe : Prop := q.method = b!"GET" ∨ q.method = b!"HEAD"

/-- The modification time in whole seconds, given in nanoseconds. -/
def second : Int := q.modTime / 10 ^ 9 * 10 ^ 9

/-- The modification time is neither the zero time nor the Unix epoch. -/
def Known : Prop := q.modTime ≠ 0 ∧ q.modTime ≠ -62135596800 * 10 ^ 9

/-- If-Match is there and no tag matches. -/
def MatchFails : Prop := q.ifMatch ≠ [] ∧ ¬ AnyMatch Strong q.ifMatch q.etag

/-- If-Match is not there, If-Unmodified-Since is a date, and the content is newer. -/
def ModifiedSince : Prop :=
  q.ifMatch = [] ∧ q.ifUnmodifiedSince ≠ [] ∧ q.Known ∧ ∃ t, q.date q.ifUnmodifiedSince = some t ∧ t < q.second

/-- If-None-Match is there and a tag matches. -/
def NoneMatchFails : Prop := q.ifNoneMatch ≠ [] ∧ AnyMatch Weak q.ifNoneMatch q.etag

/-- If-None-Match is not there, If-Modified-Since is a date and the content is not newer. -/
def NotModified : Prop :=
  q.ifNoneMatch = [] ∧ q.Safe ∧ q.ifModifiedSince ≠ [] ∧ q.Known ∧
    ∃ t, q.date q.ifModifiedSince = some t ∧ q.second ≤ t

/-- `text` is, after white space, an entity tag followed by anything. -/
def StartsWithTag (text : Str) (e : ETag) : Prop := e.Valid ∧ ∃ sp rest, (∀ c ∈ sp, Space c) ∧ text = sp ++ e.written ++ rest

/-- If-Range is there, and is neither the (strong) tag of the content nor its date. -/
def RangeFails : Prop :=
  q.Safe ∧ q.ifRange ≠ [] ∧
    ¬ (∃ e, StartsWithTag q.ifRange e ∧ HasTag q.etag e ∧ e.weak = false) ∧
    ¬ ((∀ e, ¬ StartsWithTag q.ifRange e) ∧ q.modTime ≠ -62135596800 * 10 ^ 9 ∧
        ∃ t, q.date q.ifRange = some t ∧ t / 10 ^ 9 = q.modTime / 10 ^ 9)

end Question

end Verif.Spec
