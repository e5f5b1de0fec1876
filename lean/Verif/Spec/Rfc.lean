import Verif.Spec.Message
import Verif.Spec.Headers
import Verif.Spec.Text

/-! What RFC 7230 says about the end of a message's body. Nothing here refers to the model's functions, except for the type
of framings and for `str::to_lowercase`. -/

namespace HttpIo.Spec

/-- The values of the headers with the (lower-case) name `name`, in order of arrival. -/
def valuesOf [CaseMap] (name : Bytes) (hist : List (Bytes × Bytes)) : List Bytes :=
  (hist.filter fun kv => CaseMap.lower kv.1 = name).map (·.2)

/-- Only spaces and tabs. -/
def Blanks (bs : Bytes) : Prop := ∀ b ∈ bs, b = 32 ∨ b = 9

/-- The last element of the comma-separated list `v` is `chunked`, in any case. -/
def FinalChunked (v : Bytes) : Prop :=
  ∃ pre w post, v = pre ++ w ++ post ∧ SameText w b!"chunked" ∧ Blanks post ∧
    (Blanks pre ∨ ∃ p bl, pre = p ++ [44] ++ bl ∧ Blanks bl)

/-- Framing headers that are spelled plainly and do not contradict each other. -/
structure Plain [CaseMap] (hist : List (Bytes × Bytes)) : Prop where
  coding : ∀ v ∈ valuesOf b!"transfer-encoding" hist, v = b!"chunked"
  length : ∀ v ∈ valuesOf b!"content-length" hist, ∃ n, Numeral 10 v n ∧ n < 2 ^ 64
  same : ∀ v ∈ valuesOf b!"content-length" hist, ∀ w ∈ valuesOf b!"content-length" hist, v = w

/-- RFC 7230, 3.3.3, for requests. `te` and `cl` are the values of `transfer-encoding` and `content-length`. `none`: the
request must be rejected. -/
inductive RfcRequest (te cl : List Bytes) : Option Framing → Prop
  /-- Rule 3: the transfer coding decides; a content length beside it is overridden. -/
  | chunked {v : Bytes} : te.getLast? = some v → FinalChunked v → RfcRequest te cl (some .chunked)
  /-- Rule 3: if the final coding is not chunked, the length cannot be determined. -/
  | unknownCoding {v : Bytes} : te.getLast? = some v → ¬ FinalChunked v → RfcRequest te cl none
  /-- Rule 4: several different values ... -/
  | conflict {v w : Bytes} : te = [] → v ∈ cl → w ∈ cl → v ≠ w → RfcRequest te cl none
  /-- ... or one that is not `1*DIGIT` cannot be recovered from. -/
  | invalid {v : Bytes} : te = [] → v ∈ cl → (¬ ∃ n, Numeral 10 v n) → RfcRequest te cl none
  /-- Rule 5. -/
  | length {v : Bytes} {n : Nat} : te = [] → v ∈ cl → (∀ w ∈ cl, w = v) → Numeral 10 v n → RfcRequest te cl (some (.limited n))
  /-- Rule 6: no body. -/
  | absent : te = [] → cl = [] → RfcRequest te cl (some (.limited 0))

/-- Statuses whose responses have no body: 1xx, 204, 304. -/
def Bodiless (code : Nat) : Prop := (100 ≤ code ∧ code < 200) ∨ code = 204 ∨ code = 304

/-- RFC 7230, 3.3.3, for responses (not to HEAD or CONNECT) with status `code`. -/
inductive RfcResponse (code : Nat) (te cl : List Bytes) : Option Framing → Prop
  /-- Rule 1. -/
  | bodiless : Bodiless code → RfcResponse code te cl (some (.limited 0))
  /-- Rule 3. -/
  | chunked {v : Bytes} : ¬ Bodiless code → te.getLast? = some v → FinalChunked v → RfcResponse code te cl (some .chunked)
  | unknownCoding {v : Bytes} : ¬ Bodiless code → te.getLast? = some v → ¬ FinalChunked v →
      RfcResponse code te cl (some .tilClose)
  /-- Rule 4. -/
  | conflict {v w : Bytes} : ¬ Bodiless code → te = [] → v ∈ cl → w ∈ cl → v ≠ w → RfcResponse code te cl none
  | invalid {v : Bytes} : ¬ Bodiless code → te = [] → v ∈ cl → (¬ ∃ n, Numeral 10 v n) → RfcResponse code te cl none
  /-- Rule 5. -/
  | length {v : Bytes} {n : Nat} : ¬ Bodiless code → te = [] → v ∈ cl → (∀ w ∈ cl, w = v) → Numeral 10 v n →
      RfcResponse code te cl (some (.limited n))
  /-- Rule 7. -/
  | absent : ¬ Bodiless code → te = [] → cl = [] → RfcResponse code te cl (some .tilClose)

/-- The header values for which a request is framed, or rejected, as the RFC says. -/
inductive RequestAgrees (te cl : List Bytes) : Prop
  /-- The last coding is `chunked` in lower case and alone, and the last length, if there is one, can be read. -/
  | chunked : te.getLast? = some b!"chunked" → (∀ v, cl.getLast? = some v → ∃ n, LengthText v n) → RequestAgrees te cl
  /-- One length, perhaps repeated, of digits and not too large. -/
  | length {v : Bytes} {n : Nat} : te = [] → v ∈ cl → (∀ w ∈ cl, w = v) → Numeral 10 v n → n < 2 ^ 64 → RequestAgrees te cl
  /-- It must be rejected, and the last length cannot be read. -/
  | rejected {v : Bytes} : RfcRequest te cl none → cl.getLast? = some v → (¬ ∃ n, LengthText v n) → RequestAgrees te cl

/-- The status and header values for which a response is framed, or rejected, as the RFC says. -/
inductive ResponseAgrees (code : Nat) (te cl : List Bytes) : Prop
  /-- There must be no body, and the length says so. -/
  | bodiless {v : Bytes} : Bodiless code → te.getLast? ≠ some b!"chunked" → cl.getLast? = some v → LengthText v 0 →
      ResponseAgrees code te cl
  | chunked : ¬ Bodiless code → te.getLast? = some b!"chunked" → (∀ v, cl.getLast? = some v → ∃ n, LengthText v n) →
      ResponseAgrees code te cl
  | length {v : Bytes} {n : Nat} : ¬ Bodiless code → te = [] → v ∈ cl → (∀ w ∈ cl, w = v) → Numeral 10 v n → n < 2 ^ 64 →
      ResponseAgrees code te cl
  /-- No length, and no coding, or one that does not end with `chunked`. -/
  | close : ¬ Bodiless code → cl = [] → (∀ v, te.getLast? = some v → ¬ FinalChunked v) → ResponseAgrees code te cl
  | rejected {v : Bytes} : RfcResponse code te cl none → cl.getLast? = some v → (¬ ∃ n, LengthText v n) →
      ResponseAgrees code te cl

end HttpIo.Spec
