import Verif.Model.CrLf
import Verif.Model.Parser

/-!
Headers: `src/protocol.rs:1373-1522`.
-/

namespace HttpIo

/-- `Ord for str`: lexicographic on bytes. -/
def bytesLt : Bytes → Bytes → Bool
  | [], [] => false
  | [], _ :: _ => true
  | _ :: _, [] => false
  | a :: as, b :: bs => a < b || (a == b && bytesLt as bs)

/-- `BTreeMap::insert` on the sorted list of entries. -/
def mapInsert (k v : Bytes) : List (Bytes × Bytes) → List (Bytes × Bytes)
  | [] => [(k, v)]
  | (k', v') :: rest =>
    if k = k' then (k', v) :: rest
    else if bytesLt k k' then (k, v) :: (k', v') :: rest
    else (k', v') :: mapInsert k v rest

/-- `BTreeMap::get`. -/
def mapGet (k : Bytes) : List (Bytes × Bytes) → Option Bytes
  | [] => none
  | (k', v) :: rest => if k = k' then some v else mapGet k rest

/-- `src/protocol.rs:1419-1422`. The `BTreeMap` is the list of its entries in key order. -/
structure HttpHeaders where
  entries : List (Bytes × Bytes)
deriving DecidableEq, Repr

/-- `src/protocol.rs:1373-1377`. -/
structure HttpHeader where
  key : Bytes
  value : Bytes
deriving DecidableEq, Repr

section
variable {σ : Type} [LawfulReader σ]

namespace HttpHeaders

/-- The inner loop of `HttpHeaders::deserialize` (`src/protocol.rs:1464-1469`): append continuation lines to
`line`; returns the extended line and the item that was peeked and not taken. -/
def gather (c : Cfg) (line : Bytes) (s : σ) : Bytes × Option (Except Err Bytes) × σ :=
  match h : crlfNext c s with
  | (some (.ok next), s') =>
    if startsWith next b!" " || startsWith next b!"\t" then gather c (line ++ next) s'
    else (line, some (.ok next), s')
  | (item, s') => (line, item, s')
termination_by (trace s).length
decreasing_by exact crlfNext_ok_lt h

theorem gather_progress (c : Cfg) (line : Bytes) (s : σ) :
    (trace (gather c line s).2.2).length ≤ (trace s).length ∧
    ∀ l, (gather c line s).2.1 = some (.ok l) → (trace (gather c line s).2.2).length < (trace s).length := by
  fun_induction gather c line s with
  | case1 line s next s' h hs ih =>
    have := crlfNext_ok_lt h
    exact ⟨by omega, fun l hl => by have := ih.2 l hl; omega⟩
  | case2 line s next s' h hs =>
    have := crlfNext_ok_lt h
    exact ⟨by dsimp only; omega, fun _ _ => this⟩
  | case3 line s item s' hno h =>
    refine ⟨crlfNext_le h, ?_⟩
    rintro l rfl
    exact absurd rfl (hno l)

end HttpHeaders
end

section
variable [CaseMap]

/-- `src/protocol.rs:1380-1385`. -/
def HttpHeader.new (key value : Bytes) : HttpHeader := ⟨CaseMap.lower key, value⟩

/-- `src/protocol.rs:1387-1394`. -/
def HttpHeader.deserialize (s : Bytes) : Res HttpHeader :=
  match (Parser.new s).parseUntil b!":" with
  | (.err e, _) => .err e
  | (.panic, _) => .panic
  | (.ok key, p1) =>
    match p1.expect b!": " with
    | (.err e, _) => .err e
    | (.panic, _) => .panic
    | (.ok (), p2) =>
      match p2.parseRemaining with
      | (.err e, _) => .err e
      | (.panic, _) => .panic
      | (.ok value, _) => .ok (HttpHeader.new (CaseMap.lower key) value)

namespace HttpHeaders

/-- `src/protocol.rs:1442-1446`. -/
def new : HttpHeaders := ⟨[]⟩

/-- `src/protocol.rs:1448-1452`. -/
def get (h : HttpHeaders) (key : Bytes) : Option Bytes := mapGet (CaseMap.lower key) h.entries

/-- `src/protocol.rs:1454-1457`. -/
def insert (h : HttpHeaders) (key value : Bytes) : HttpHeaders :=
  ⟨mapInsert (CaseMap.lower key) value h.entries⟩

/-- `FromIterator<(String, String)>` (`src/protocol.rs:1483-1489`), also what the `http_headers!` macro collects
into (`:1425-1439`). Keys are not lower-cased. -/
def fromIter (l : List (Bytes × Bytes)) : HttpHeaders :=
  ⟨l.foldl (fun m kv => mapInsert kv.1 kv.2 m) []⟩

/-- `From<Vec<HttpHeader>>` (`src/protocol.rs:1514-1522`). -/
def fromVec (l : List HttpHeader) : HttpHeaders :=
  ⟨l.foldl (fun m h => mapInsert h.key h.value m) []⟩

section
variable {σ : Type} [LawfulReader σ]

/-- The outer loop of `HttpHeaders::deserialize` (`src/protocol.rs:1462-1471`). `item` is the result of
`iter.next()` (fresh or previously peeked). -/
def deserializeLoop (c : Cfg) (item : Option (Except Err Bytes)) (acc : List HttpHeader) (s : σ) :
    Res (List HttpHeader) × σ :=
  match item with
  | none => (.ok acc, s)
  | some (.error e) => (.err e, s)
  | some (.ok line) =>
    match h : gather c line s with
    | (line', item', s') =>
      match HttpHeader.deserialize line' with
      | .ok hd => deserializeLoop c item' (acc ++ [hd]) s'
      | .err e => (.err e, s')
      | .panic => (.panic, s')
termination_by (trace s).length + (match item with | some (.ok _) => 1 | _ => 0)
decreasing_by
  have hp := gather_progress c line s
  rw [h] at hp
  dsimp only at hp ⊢
  split
  · rename_i l; have := hp.2 _ rfl; omega
  · have := hp.1; omega

/-- `src/protocol.rs:1459-1473`. -/
def deserialize (c : Cfg) (s : σ) : Res HttpHeaders × σ :=
  match crlfNext c s with
  | (item, s') =>
    match deserializeLoop c item [] s' with
    | (.ok hs, s'') => (.ok (fromVec hs), s'')
    | (.err e, s'') => (.err e, s'')
    | (.panic, s'') => (.panic, s'')

end

/-- The pieces that `HttpHeaders::serialize` hands to `write_all`, in order (`src/protocol.rs:1475-1480`;
`write!` with the format string `"{}: {}\r\n"` writes four pieces). -/
def pieces (h : HttpHeaders) : List Bytes :=
  h.entries.flatMap fun kv => [kv.1, b!": ", kv.2, b!"\r\n"]

end HttpHeaders
end

end HttpIo
