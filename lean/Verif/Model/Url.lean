import Verif.Model.Text

/-!
URLs: `src/url.rs`. The type `Url` and its parser come from the `url` crate, which is not part of the repository:
`Url` is a record of the components the crate's code looks at, and parsing is a parameter.
-/

namespace HttpIo

/-- The components of `url::Url` (external crate) that are used in `src/url.rs` and `src/client.rs`.
`port` is the explicit port. The fragment, the user name and the password are not looked at. -/
structure Url where
  scheme : Bytes
  host : Option Bytes
  port : Option Nat
  path : Bytes
  query : Option Bytes
  fragment : Option Bytes
  username : Bytes := []
  password : Option Bytes := none
deriving DecidableEq, Repr

/-- `url::Url::port_or_known_default` (external crate): the explicit port, else the default of a known scheme. -/
def Url.portOrKnownDefault (u : Url) : Option Nat :=
  match u.port with
  | some p => some p
  | none =>
    if u.scheme = b!"http" ∨ u.scheme = b!"ws" then some 80
    else if u.scheme = b!"https" ∨ u.scheme = b!"wss" then some 443
    else if u.scheme = b!"ftp" then some 21
    else none

/-- `src/url.rs:11-17`. -/
inductive Scheme where
  | Http
  | Https
  | File
  | Other (s : Bytes)
deriving DecidableEq, Repr

/-- `src/url.rs:19-30`. -/
def Scheme.fromStr [CaseMap] (s : Bytes) : Res Scheme :=
  let l := CaseMap.lower s
  .ok (if l = b!"http" then .Http
    else if l = b!"https" then .Https
    else if l = b!"file" then .File
    else .Other l)

/-- `src/url.rs:32-41`. -/
def Scheme.display : Scheme → Bytes
  | .Http => b!"http"
  | .Https => b!"https"
  | .File => b!"file"
  | .Other s => s

/-- `src/url.rs:43-48`. -/
structure HttpUrl where
  url : Url
  scheme : Scheme
  host : Bytes
deriving DecidableEq, Repr

/-- `src/url.rs:51-54`: `unwrap` panics if there is no port. -/
def HttpUrl.portOf (u : HttpUrl) : Res Nat :=
  match u.url.portOrKnownDefault with
  | some p => .ok p
  | none => .panic

/-- `src/url.rs:71-89`. A URL without host panics (`unwrap`, `:82`). The error's text is left out. -/
def HttpUrl.tryFrom [CaseMap] (url : Url) : Res HttpUrl :=
  match Scheme.fromStr url.scheme with
  | .err e => .err e
  | .panic => .panic
  | .ok scheme =>
    if scheme ≠ .Http ∧ scheme ≠ .Https then .err .url
    else
      match url.host with
      | none => .panic
      | some host => .ok { url, scheme, host }

/-- `src/url.rs:91-98` (and `:100-106`). `parse` is `Url::parse`. -/
def HttpUrl.fromStr [CaseMap] (parse : Bytes → Option Url) (s : Bytes) : Res HttpUrl :=
  match parse s with
  | none => .err .url
  | some url => HttpUrl.tryFrom url

/-- The `PartialEq` derived at `src/url.rs:43`: all three fields are compared, in order. `Url`'s own `==` (external crate) is
equality of the components. -/
def HttpUrl.beq (u v : HttpUrl) : Bool := decide (u.url = v.url) && decide (u.scheme = v.scheme) && decide (u.host = v.host)

/-- `src/url.rs:108-112`. `render` is `Url`'s `Display` (external crate). -/
def HttpUrl.display (render : Url → Bytes) (u : HttpUrl) : Bytes := render u.url

end HttpIo
