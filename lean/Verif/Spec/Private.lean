import Verif.Model.Url

/-! What of a URL is for the client alone: the fragment (RFC 3986 3.5) and the user name and the password, which this crate
makes no use of. -/

namespace HttpIo

/-- Two URLs that differ at most in the fragment, the user name and the password. -/
structure SamePublic (u v : Url) : Prop where
  scheme : u.scheme = v.scheme
  host : u.host = v.host
  port : u.port = v.port
  path : u.path = v.path
  query : u.query = v.query

end HttpIo
