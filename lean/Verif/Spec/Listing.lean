import Verif.Spec.Files
import Verif.Spec.Body
import Verif.Spec.Text
import Verif.Spec.Utf8
import Verif.Spec.Codes
import Verif.Model.Listing

/-! Specification vocabulary for the file server that lists directories. -/

namespace HttpIo.Spec

/-- `names` are the entries of the directory `p`, each once. -/
def Lists (names : List Bytes) (fs : Fs) (p : List Bytes) : Prop :=
  names.Nodup ∧ ∀ n, n ∈ names ↔ fs (p ++ [n]) ≠ none ∧ IsName n ∧ (47 : UInt8) ∉ n ∧ (0 : UInt8) ∉ n

/-- An item of a listing. -/
def itemText (href name : Bytes) : Bytes := utf8 "<li><a href=\"" ++ href ++ utf8 "\">" ++ name ++ utf8 "</a></br>"

/-- The page of a listing. -/
def pageText (title items : Bytes) : Bytes :=
  utf8 "\n                <html>\n                <title>Directory listing for " ++ title ++
  utf8 "</title>\n                <h2>Directory listing for " ++ title ++
  utf8 "</h2>\n                <body>\n                <hr>\n                <ul>\n                " ++ items ++
  utf8 "\n                </ul>\n                <hr>\n                </body>\n                </html>\n            "

/-- The item for the entry `n` of the directory `p`: a slash after the name marks a directory. -/
inductive EntryItem (fs : Fs) (p : List Bytes) (n : Bytes) : Bytes → Prop
  | dir : fs (p ++ [n]) = some .dir → EntryItem fs p n (itemText (n ++ [47]) n)
  | file {content : Bytes} : fs (p ++ [n]) = some (.file content) → EntryItem fs p n (itemText n n)
  | link {text : Bytes} : fs (p ++ [n]) = some (.link text) → EntryItem fs p n (itemText n n)

/-- The items of a listing of `p`: one for every entry whose name is text, in some order. -/
def Items (fs : Fs) (p : List Bytes) (items : List (Bytes × Bytes)) : Prop :=
  (items.map (·.1)).Nodup ∧
  (∀ n, (∃ i, (n, i) ∈ items) ↔ fs (p ++ [n]) ≠ none ∧ IsName n ∧ (47 : UInt8) ∉ n ∧ (0 : UInt8) ∉ n ∧ IsText n) ∧
  ∀ x ∈ items, EntryItem fs p x.1 x.2

/-- Whenever a GET of `target` arrives, the server answers with this status, these headers and this body, and its
state stays as it is. -/
def GetGives {c : Cfg} {η σ ρ ε : Type} [CaseMap] [LawfulReader σ] [LawfulReader ρ] [ZeroReader ρ] [Writer σ]
    (h : Handler c η σ ρ ε) (errText : Err → Bytes) (st : η) (target : Bytes) (status : HttpStatus) (entries : List (Bytes × Bytes))
    (bs : Bytes) : Prop :=
  ∀ (s : σ) (r : HttpRequest c (BufReader c σ)) (s1 : BufReader c σ),
    HttpRequest.deserialize c (BufReader.new c s) = (.ok r, s1) → r.method = .Get → r.uri = target →
    (∃ a, ((h.serveOneInner errText s st).1 = .ok a ∨ (h.serveOneInner errText s st).1 = .err a) ∧ a.version = ⟨1, 1⟩ ∧
      a.status = status ∧ a.headers.entries = entries ∧ Yields a.body bs) ∧
    (h.serveOne errText (.ok s) st).2.2 = st

/-- Nothing is there. -/
def Absent (fs : Fs) (R cs : List Bytes) : Prop := ∀ p, Leads fs R cs p → fs p = none

/-- On the way there is a file where a directory would have to be. -/
def Blocked (fs : Fs) (R cs : List Bytes) : Prop :=
  ∃ n p c rest content, n ≤ 40 ∧ Comes fs n R cs p (c :: rest) ∧ fs p = some (.file content)

/-- On the way there are more symbolic links than the operating system follows. -/
def Tangled (fs : Fs) (R cs : List Bytes) : Prop := ∃ p rest, Comes fs 41 R cs p rest

/-- RFC 3986, section 5.2.3, for a reference that is a relative path: it replaces what follows the last slash. (Dot segments
would then be removed, section 5.2.4; a browser has removed them from the base before.) -/
def Beside (base ref target : Bytes) : Prop :=
  ∃ dir last, (47 : UInt8) ∉ last ∧ base = dir ++ [47] ++ last ∧ target = dir ++ [47] ++ ref

/-- Characters that neither HTML nor URLs give a meaning (RFC 3986, section 2.3): a browser sends them as they are. -/
def Unreserved (n : Bytes) : Prop :=
  ∀ b ∈ n, (48 ≤ b.toNat ∧ b.toNat ≤ 57) ∨ (65 ≤ b.toNat ∧ b.toNat ≤ 90) ∨ (97 ≤ b.toNat ∧ b.toNat ≤ 122) ∨
    b = 45 ∨ b = 46 ∨ b = 95 ∨ b = 126

end HttpIo.Spec
