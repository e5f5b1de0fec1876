import Verif.Spec.Panic
import Verif.Spec.Stream

/-! Specification of the error that a head gives that is not accepted, for each stream. -/

namespace HttpIo.Spec

/-- No line can be read: the stream ends within it, or fails within it, or the line is no text. -/
inductive LineFault (c : Cfg) (t : List Ev) : Err → Prop
  | ends {bs : HttpIo.Bytes} {t' : List Ev} : ¬ HasCrLf bs → Delivers c t bs t' → Ended c t' → LineFault c t .unexpectedEof
  | fails {bs : HttpIo.Bytes} {t' t'' : List Ev} {e : Err} : ¬ HasCrLf bs → Delivers c t bs t' → Fails c t' e t'' → LineFault c t e
  | noText {line : HttpIo.Bytes} {t' : List Ev} : ¬ HasCrLf line → ¬ IsText line → Delivers c t (line ++ [13, 10]) t' →
      LineFault c t .utf8

/-- A word that does not begin with a version: `HTTP/` is not there, or no digit, or no dot, or it ends before. -/
inductive VersionFault : HttpIo.Bytes → Err → Prop
  | empty : VersionFault [] .unexpectedEof
  | name {v : HttpIo.Bytes} : v ≠ [] → (∀ r, v ≠ utf8 "HTTP/" ++ r) → ¬ CutVersion v → VersionFault v .parse
  | noMajor : VersionFault (utf8 "HTTP/") .unexpectedEof
  | major {b : UInt8} {r : HttpIo.Bytes} : b.toNat < 128 → (∀ n, ¬ DigitVal 10 b n) → VersionFault (utf8 "HTTP/" ++ b :: r) .parseInt
  | noDot {d : UInt8} {n : Nat} : DigitVal 10 d n → VersionFault (utf8 "HTTP/" ++ [d]) .unexpectedEof
  | dot {d b : UInt8} {n : Nat} {r : HttpIo.Bytes} : DigitVal 10 d n → b.toNat < 128 → b ≠ 46 →
      VersionFault (utf8 "HTTP/" ++ d :: b :: r) .parse
  | noMinor {d : UInt8} {n : Nat} : DigitVal 10 d n → VersionFault (utf8 "HTTP/" ++ [d, 46]) .unexpectedEof
  | minor {d b : UInt8} {n : Nat} {r : HttpIo.Bytes} : DigitVal 10 d n → b.toNat < 128 → (∀ n, ¬ DigitVal 10 b n) →
      VersionFault (utf8 "HTTP/" ++ d :: 46 :: b :: r) .parseInt

/-- NoWord, perhaps none. -/
def NoWord (g : HttpIo.Bytes) : Prop := ∀ b ∈ g, b = 32 ∨ b = 9

/-- No request line: an unknown method, or no target, or no version, or a wrong one. -/
inductive RequestLineFault [CaseMap] (line : HttpIo.Bytes) : Err → Prop
  | method {tok : HttpIo.Bytes} : FirstToken line tok → (∀ m, CaseMap.upper tok ≠ utf8 (methodName m)) → RequestLineFault line .parse
  | noTarget {tok g : HttpIo.Bytes} {m : HttpMethod} : line = tok ++ g → Word tok → NoWord g → CaseMap.upper tok = utf8 (methodName m) →
      RequestLineFault line .unexpectedEof
  | noVersion {tok g target g' : HttpIo.Bytes} {m : HttpMethod} : line = tok ++ g ++ target ++ g' → Word tok → Gap g → Word target →
      NoWord g' → CaseMap.upper tok = utf8 (methodName m) → RequestLineFault line .unexpectedEof
  | version {m : HttpMethod} {target v : HttpIo.Bytes} {e : Err} : RequestWords line m target v → VersionFault v e → RequestLineFault line e

/-- No status line: a wrong version, or no code, or a code that is no number below `2 ^ 32`. -/
inductive StatusLineFault (line : HttpIo.Bytes) : Err → Prop
  | version {v : HttpIo.Bytes} {e : Err} : FirstToken line v → VersionFault v e → StatusLineFault line e
  | noCode {v g : HttpIo.Bytes} {major minor : Nat} : line = v ++ g → FirstToken line v → NoWord g → VersionText v major minor →
      StatusLineFault line .unexpectedEof
  | code {v g rest t : HttpIo.Bytes} {major minor : Nat} : line = v ++ g ++ rest → FirstToken line v → Gap g → ¬ StartsBlank rest →
      rest ≠ [] → VersionText v major minor → FirstToken rest t → (∀ n, n < 2 ^ 32 → ¬ UnsignedText 10 t n) → StatusLineFault line .parseInt

/-- No headers: after header lines (perhaps none) no line can be read, or one of the lines, continuations included, has no colon
followed by a space. -/
inductive HeadersFault (c : Cfg) (t : List Ev) : Err → Prop
  | line {raw good : List HttpIo.Bytes} {t' : List Ev} {e : Err} : (∀ l ∈ raw, RawLine l) →
      Delivers c t (raw.flatMap (· ++ [13, 10])) t' → Folded raw good → (∀ l ∈ good, ∃ k v, HeaderLine l k v) → LineFault c t' e →
      HeadersFault c t e
  | field {raw good : List HttpIo.Bytes} {bad : HttpIo.Bytes} {t' : List Ev} : (∀ l ∈ raw, RawLine l) →
      Delivers c t (raw.flatMap (· ++ [13, 10])) t' → LineOver c t' → Folded raw (good ++ [bad]) →
      (∀ l ∈ good, ∃ k v, HeaderLine l k v) → (∀ k v, ¬ HeaderLine bad k v) → ¬ CutHeader bad → HeadersFault c t .parse

/-- No head, where `Start` says which first lines are good and `StartFault` what is wrong with the others: the first line cannot be
read, or is empty, or is wrong; or the headers are; or all is well but the content length. -/
inductive HeadFault [CaseMap] (c : Cfg) (Start : HttpIo.Bytes → Prop) (StartFault : HttpIo.Bytes → Err → Prop) (t : List Ev) : Err → Prop
  | first {e : Err} : LineFault c t e → HeadFault c Start StartFault t e
  | blank {t' : List Ev} : Delivers c t [13, 10] t' → HeadFault c Start StartFault t .unexpectedEof
  | start {line : HttpIo.Bytes} {t' : List Ev} {e : Err} : RawLine line → Delivers c t (line ++ [13, 10]) t' → StartFault line e →
      HeadFault c Start StartFault t e
  | headers {line : HttpIo.Bytes} {t' : List Ev} {e : Err} : RawLine line → Delivers c t (line ++ [13, 10]) t' → Start line →
      HeadersFault c t' e → HeadFault c Start StartFault t e
  | length {line v : HttpIo.Bytes} {raw : List HttpIo.Bytes} {hist : List (HttpIo.Bytes × HttpIo.Bytes)} {t' : List Ev} : RawLine line →
      Start line → (∀ l ∈ raw, RawLine l) → Delivers c t (blockBytes (line :: raw)) t' →
      Folded raw (hist.map fun kv => kv.1 ++ [58, 32] ++ kv.2) → (∀ kv ∈ hist, (58 : UInt8) ∉ kv.1) →
      LastWith (fun k => CaseMap.lower k = utf8 "content-length") hist v → (∀ n, n < 2 ^ 64 → ¬ UnsignedText 10 v n) →
      HeadFault c Start StartFault t .parseInt

/-- No request. -/
def RequestFault [CaseMap] (c : Cfg) (t : List Ev) (e : Err) : Prop :=
  HeadFault c (fun line => ∃ m target major minor, RequestLine line m target major minor) RequestLineFault t e

/-- No response. -/
def ResponseFault [CaseMap] (c : Cfg) (t : List Ev) (e : Err) : Prop :=
  HeadFault c (fun line => ∃ major minor code, StatusLine line major minor code) StatusLineFault t e

end HttpIo.Spec
