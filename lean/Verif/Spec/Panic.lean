import Verif.Model.Text
import Verif.Spec.Codes
import Verif.Spec.Headers
import Verif.Spec.Text

/-! Specification vocabulary for the heads that panic the parsers: the texts that `&s[a..b]` would cut inside a
character. -/

namespace HttpIo.Spec

/-- A word: not empty, no blanks. -/
def Word (w : Bytes) : Prop := w ≠ [] ∧ ∀ b ∈ w, b ≠ 32 ∧ b ≠ 9

/-- What separates words: one or more blanks. -/
def Gap (g : Bytes) : Prop := g ≠ [] ∧ ∀ b ∈ g, b = 32 ∨ b = 9

/-- Where `HTTP/d.d` is expected, a character that is not ASCII lies across the end of one of the pieces
`HTTP/`, `d`, `.`, `d`, and every piece before that one is in place. -/
def CutVersion (v : Bytes) : Prop :=
  (∃ a b rest, v = a ++ b :: rest ∧ a.length = 5 ∧ 128 ≤ b.toNat ∧ b.toNat < 192) ∨
  (∃ b rest, v = utf8 "HTTP/" ++ b :: rest ∧ 128 ≤ b.toNat) ∨
  (∃ d n b rest, v = utf8 "HTTP/" ++ d :: b :: rest ∧ DigitVal 10 d n ∧ 128 ≤ b.toNat) ∨
  ∃ d n b rest, v = utf8 "HTTP/" ++ d :: 46 :: b :: rest ∧ DigitVal 10 d n ∧ 128 ≤ b.toNat

/-- A status line whose first word is such a version. -/
def CutStatusLine (line : Bytes) : Prop := ∃ v, FirstToken line v ∧ CutVersion v

/-- The line has three words or more: the name of the method `m` (in any case), `target`, `v`. -/
def RequestWords [CaseMap] (line : Bytes) (m : HttpMethod) (target v : Bytes) : Prop :=
  ∃ tok g1 g2 rest, line = tok ++ g1 ++ target ++ g2 ++ rest ∧ Word tok ∧ Gap g1 ∧ Word target ∧ Gap g2 ∧
    CaseMap.upper tok = utf8 (methodName m) ∧ FirstToken rest v ∧ v ≠ []

/-- A request line whose third word is such a version. -/
def CutRequestLine [CaseMap] (line : Bytes) : Prop := ∃ m target v, RequestWords line m target v ∧ CutVersion v

/-- The word begins with the version `major.minor`. -/
def VersionText (v : Bytes) (major minor : Nat) : Prop :=
  ∃ d1 d2 rest, v = utf8 "HTTP/" ++ [d1] ++ [46] ++ [d2] ++ rest ∧ DigitVal 10 d1 major ∧ DigitVal 10 d2 minor

/-- A request line: method, target, version, and anything after them. -/
def RequestLine [CaseMap] (line : Bytes) (m : HttpMethod) (target : Bytes) (major minor : Nat) : Prop :=
  ∃ v, RequestWords line m target v ∧ VersionText v major minor

/-- A status line: version, code, and anything after them. -/
def StatusLine (line : Bytes) (major minor code : Nat) : Prop :=
  ∃ v g rest t, line = v ++ g ++ rest ∧ FirstToken line v ∧ Gap g ∧ ¬ StartsBlank rest ∧ VersionText v major minor ∧
    FirstToken rest t ∧ UnsignedText 10 t code ∧ code < 2 ^ 32

/-- A header line whose first colon is followed by a byte above 0x7F. -/
def CutHeader (line : Bytes) : Prop :=
  ∃ k b rest, line = k ++ 58 :: b :: rest ∧ (58 : UInt8) ∉ k ∧ 128 ≤ b.toNat

/-- The line before is complete: what the transport delivers next is not one more line that begins with a blank. (It is
a line that does not, an empty line, a line that is not text, a failure, or the end.) -/
def LineOver (c : Cfg) (t : List Ev) : Prop :=
  ∀ l t', RawLine l → Delivers c t (l ++ [13, 10]) t' → ¬ StartsBlank l

/-- The transport delivers header lines, all complete, all accepted but the last, which panics. -/
def CutHeaders (c : Cfg) (t : List Ev) : Prop :=
  ∃ raw good bad t', (∀ l ∈ raw, RawLine l) ∧ Delivers c t (raw.flatMap (· ++ [13, 10])) t' ∧ LineOver c t' ∧
    Folded raw (good ++ [bad]) ∧ (∀ l ∈ good, ∃ k v, HeaderLine l k v) ∧ CutHeader bad

end HttpIo.Spec

namespace HttpIo.Spec

/-- The streams that panic the parser of requests: a whole first line that would be cut, or one that is accepted and
headers that would. -/
def CutRequest [CaseMap] (c : Cfg) (t : List Ev) : Prop :=
  ∃ line t1, RawLine line ∧ Delivers c t (line ++ [13, 10]) t1 ∧
    (CutRequestLine line ∨ (∃ m target major minor, RequestLine line m target major minor) ∧ CutHeaders c t1)

/-- The streams that panic the parser of responses. -/
def CutResponse (c : Cfg) (t : List Ev) : Prop :=
  ∃ line t1, RawLine line ∧ Delivers c t (line ++ [13, 10]) t1 ∧
    (CutStatusLine line ∨ (∃ major minor code, StatusLine line major minor code) ∧ CutHeaders c t1)

/-- The transport delivers the first line `line`, header lines that unfold to the pairs `hist`, and a blank line; `t'`
follows. The content length, if any, is a number. -/
def HeadOf [CaseMap] (c : Cfg) (t : List Ev) (line : Bytes) (hist : List (Bytes × Bytes)) (t' : List Ev) : Prop :=
  ∃ raw : List Bytes, RawLine line ∧ (∀ l ∈ raw, RawLine l) ∧ Delivers c t (blockBytes (line :: raw)) t' ∧
    Folded raw (hist.map fun kv => kv.1 ++ [58, 32] ++ kv.2) ∧ (∀ kv ∈ hist, (58 : UInt8) ∉ kv.1) ∧
    ∀ v, LastWith (fun k => CaseMap.lower k = utf8 "content-length") hist v → ∃ n, UnsignedText 10 v n ∧ n < 2 ^ 64

/-- The answers a header set gives are those of the history of its lines: the last of a name, compared in lower case. -/
def AnswersLike [CaseMap] (get : Bytes → Option Bytes) (hist : List (Bytes × Bytes)) : Prop :=
  ∀ name, (∀ v, get name = some v ↔ LastWith (fun k => CaseMap.lower k = CaseMap.lower name) hist v) ∧
    (get name = none ↔ ∀ kv ∈ hist, CaseMap.lower kv.1 ≠ CaseMap.lower name)

end HttpIo.Spec
