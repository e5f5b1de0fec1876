import Verif.Spec.Body
import Verif.Spec.Headers
import Verif.Spec.Rfc
import Verif.Spec.Text

/-! The grammar of RFC 7230 (sections 2.6, 3, 4.1) for messages, as far as the crate reads or writes it. Nothing here
refers to the model's functions. Obsolete line folding (3.2.4) is left out: senders must not use it. -/

namespace HttpIo.Spec

/-- `tchar` of 3.2.6. -/
def TokenChar (b : UInt8) : Prop :=
  b ∈ b!"!#$%&'*+-.^_`|~0123456789ABCDEFGHIJKLMNOPQRSTUVWXYZabcdefghijklmnopqrstuvwxyz"

/-- `token = 1*tchar`. -/
def Token (w : Bytes) : Prop := w ≠ [] ∧ ∀ b ∈ w, TokenChar b

/-- `VCHAR`: a visible ASCII character. -/
def VisChar (b : UInt8) : Prop := 33 ≤ b.toNat ∧ b.toNat ≤ 126

/-- `HTAB / SP / VCHAR / obs-text`. -/
def TextChar (b : UInt8) : Prop := b = 9 ∨ b = 32 ∨ VisChar b ∨ 128 ≤ b.toNat

/-- `field-value`: text characters, no blank at either end. May be empty. -/
def FieldValue (v : Bytes) : Prop :=
  (∀ b ∈ v, TextChar b) ∧ (∀ b, v.head? = some b → b ≠ 32 ∧ b ≠ 9) ∧ ∀ b, v.getLast? = some b → b ≠ 32 ∧ b ≠ 9

/-- `header-field = field-name ":" OWS field-value OWS` (3.2). -/
structure Field where
  name : Bytes
  pad : Bytes
  value : Bytes
  trail : Bytes

/-- What follows the colon. -/
def Field.after (f : Field) : Bytes := f.pad ++ f.value ++ f.trail

def Field.line (f : Field) : Bytes := f.name ++ [58] ++ f.after

def Field.Conforms (f : Field) : Prop := Token f.name ∧ Blanks f.pad ∧ FieldValue f.value ∧ Blanks f.trail

/-- One space after the colon, nothing after the value: the usual spelling. -/
def Field.Usual (f : Field) : Prop := f.pad = [32] ∧ f.trail = []

/-- The header `kv` in the usual spelling. -/
def usualField (kv : Bytes × Bytes) : Field := ⟨kv.1, [32], kv.2, []⟩

/-- `HTTP-version = "HTTP/" DIGIT "." DIGIT` (2.6). -/
def RfcVersion (w : Bytes) (major minor : Nat) : Prop :=
  ∃ d1 d2, w = utf8 "HTTP/" ++ [d1] ++ [46] ++ [d2] ++ [] ∧ DigitVal 10 d1 major ∧ DigitVal 10 d2 minor

/-- `request-line = method SP request-target SP HTTP-version` (3.1.1), without its CRLF. Of the target only this is asked:
visible ASCII, at least one character. -/
def RfcRequestLine (line method target : Bytes) (major minor : Nat) : Prop :=
  ∃ w, line = method ++ [32] ++ target ++ [32] ++ w ∧ Token method ∧ target ≠ [] ∧ (∀ b ∈ target, VisChar b) ∧
    RfcVersion w major minor

/-- `status-line = HTTP-version SP 3DIGIT SP reason-phrase` (3.1.2), without its CRLF. -/
def RfcStatusLine (line : Bytes) (major minor code : Nat) (reason : Bytes) : Prop :=
  ∃ w ds, line = w ++ [32] ++ ds ++ [32] ++ reason ∧ RfcVersion w major minor ∧ ds.length = 3 ∧ Numeral 10 ds code ∧
    ∀ b ∈ reason, TextChar b

/-- `chunk-ext` (4.1.1): empty, or text that begins with `;`. (A superset of the grammar.) -/
def ChunkExt (x : Bytes) : Prop := x = [] ∨ ∃ y, x = 59 :: y ∧ ∀ b ∈ y, TextChar b

/-- A chunk as the grammar has it: size, extensions, data. -/
structure RfcChunk where
  size : Bytes
  ext : Bytes
  data : Bytes

def RfcChunk.Conforms (ch : RfcChunk) : Prop :=
  Numeral 16 ch.size ch.data.length ∧ ch.data ≠ [] ∧ ChunkExt ch.ext

def RfcChunk.bytes (ch : RfcChunk) : Bytes := ch.size ++ ch.ext ++ [13, 10] ++ ch.data ++ [13, 10]

/-- `*chunk last-chunk` (4.1): the chunks and the line `1*("0") [ chunk-ext ]`. -/
def rfcChunks (chs : List RfcChunk) (zeros ext : Bytes) : Bytes :=
  (chs.map RfcChunk.bytes).flatten ++ zeros ++ ext ++ [13, 10]

/-- `chunked-body = *chunk last-chunk trailer-part CRLF` (4.1). -/
def rfcChunked (chs : List RfcChunk) (zeros ext : Bytes) (trailer : List Field) : Bytes :=
  rfcChunks chs zeros ext ++ blockBytes (trailer.map Field.line)

def rfcData (chs : List RfcChunk) : Bytes := (chs.map RfcChunk.data).flatten

end HttpIo.Spec
