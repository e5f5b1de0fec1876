import Verif.Model.Base

/-!
Text: UTF-8 validation, char boundaries and slicing, substring search, number parsing and formatting,
case mapping. These model the parts of `core`/`alloc` that the crate calls on strings.
-/

namespace HttpIo

/-- A UTF-8 continuation byte `0b10xx_xxxx`. -/
def isCont (b : UInt8) : Bool := 0x80 ≤ b && b ≤ 0xBF

/-- `core::str::from_utf8` accepts `bs` (the validator of `core::str::validations`, Unicode table 3-7).
Called at `src/protocol.rs:252`. -/
def validUtf8 : Bytes → Bool
  | [] => true
  | b0 :: rest =>
    if b0 < 0x80 then validUtf8 rest
    else if 0xC2 ≤ b0 && b0 ≤ 0xDF then
      match rest with
      | b1 :: rest' => isCont b1 && validUtf8 rest'
      | _ => false
    else if 0xE0 ≤ b0 && b0 ≤ 0xEF then
      match rest with
      | b1 :: b2 :: rest' =>
        (if b0 == 0xE0 then 0xA0 ≤ b1 && b1 ≤ 0xBF
         else if b0 == 0xED then 0x80 ≤ b1 && b1 ≤ 0x9F
         else isCont b1) && isCont b2 && validUtf8 rest'
      | _ => false
    else if 0xF0 ≤ b0 && b0 ≤ 0xF4 then
      match rest with
      | b1 :: b2 :: b3 :: rest' =>
        (if b0 == 0xF0 then 0x90 ≤ b1 && b1 ≤ 0xBF
         else if b0 == 0xF4 then 0x80 ≤ b1 && b1 ≤ 0x8F
         else isCont b1) && isCont b2 && isCont b3 && validUtf8 rest'
      | _ => false
    else false

/-- `str::is_char_boundary`. -/
def isCharBoundary (s : Bytes) (i : Nat) : Bool :=
  if i == 0 then true
  else match s[i]? with
    | some b => !isCont b
    | none => i == s.length

/-- `&s[a..b]`: panics when out of range or off a char boundary.
Used at `src/protocol.rs:321,337,350,360,373,383-384,395,411`. -/
def slice (s : Bytes) (a b : Nat) : Res Bytes :=
  if a ≤ b && b ≤ s.length && isCharBoundary s a && isCharBoundary s b then
    .ok ((s.drop a).take (b - a))
  else .panic

/-- `&s[a..]`. -/
def sliceFrom (s : Bytes) (a : Nat) : Res Bytes := slice s a s.length

/-- `str::starts_with(&str)`. -/
def startsWith (s pre : Bytes) : Bool := pre.isPrefixOf s

/-- `str::find(&str)`: byte offset of the first occurrence. -/
def findSub (needle : Bytes) : Bytes → Option Nat
  | [] => if needle.isEmpty then some 0 else none
  | b :: bs =>
    if needle.isPrefixOf (b :: bs) then some 0 else (findSub needle bs).map (· + 1)

/-- `str::find(|c| divs.contains(&c))` for ASCII `divs`: byte offset of the first byte in `divs`.
Simplification: the Rust function takes `char`s; here the divider set is ASCII. -/
def findAny (divs : Bytes) : Bytes → Option Nat
  | [] => none
  | b :: bs => if divs.contains b then some 0 else (findAny divs bs).map (· + 1)

/-! ### Numbers -/

/-- `char::to_digit(radix)` for radix 10 and 16 (`core::char`). -/
def toDigit (radix : Nat) (b : UInt8) : Option Nat :=
  let n := b.toNat
  let d? :=
    if 48 ≤ n && n ≤ 57 then some (n - 48)
    else if 97 ≤ n && n ≤ 122 then some (n - 97 + 10)
    else if 65 ≤ n && n ≤ 90 then some (n - 65 + 10)
    else none
  d?.bind fun d => if d < radix then some d else none

/-- The digit loop of `core::num::from_str_radix` for an unsigned type with maximum `max`:
checked multiply, digit, checked add. -/
def digitLoop (radix max : Nat) : Nat → Bytes → Option Nat
  | acc, [] => some acc
  | acc, b :: bs =>
    match toDigit radix b with
    | none => none
    | some d =>
      if acc * radix ≤ max then
        if acc * radix + d ≤ max then digitLoop radix max (acc * radix + d) bs else none
      else none

/-- `u32::from_str_radix` / `u64::from_str_radix` / `FromStr` (`radix = 10`): empty and lone sign rejected,
one leading `+` allowed, `-` is not a digit of an unsigned type. `src/protocol.rs:50,352,404,1600,1876`. -/
def fromStrRadix (radix max : Nat) : Bytes → Option Nat
  | [] => none
  | [b] => if b == 43 || b == 45 then none else digitLoop radix max 0 [b]
  | b :: bs => if b == 43 then digitLoop radix max 0 bs else digitLoop radix max 0 (b :: bs)

/-- `u32::MAX`. -/
def u32Max : Nat := 4294967295
/-- `u64::MAX`. -/
def u64Max : Nat := 18446744073709551615

/-- `str::parse::<u32>()`. -/
def parseU32 (s : Bytes) : Res Nat := Res.ofOption .parseInt (fromStrRadix 10 u32Max s)
/-- `str::parse::<u64>()`. -/
def parseU64 (s : Bytes) : Res Nat := Res.ofOption .parseInt (fromStrRadix 10 u64Max s)
/-- `u64::from_str_radix(s, 16)`. -/
def parseHex64 (s : Bytes) : Res Nat := Res.ofOption .parseInt (fromStrRadix 16 u64Max s)

/-- One digit, lower case. -/
def digitChar (d : Nat) : UInt8 := if d < 10 then UInt8.ofNat (48 + d) else UInt8.ofNat (87 + d)

/-- Number formatting: `{}` (`radix = 10`) and `{:x}` (`radix = 16`), most significant digit first.
Takes the radix as `k + 2`. -/
def toRadix (k : Nat) (n : Nat) : Bytes :=
  if n < k + 2 then [digitChar n]
  else toRadix k (n / (k + 2)) ++ [digitChar (n % (k + 2))]
termination_by n
decreasing_by
  apply Nat.div_lt_self <;> omega

/-- `format!("{}", n)`. -/
def showDec (n : Nat) : Bytes := toRadix 8 n
/-- `format!("{:x}", n)`. -/
def showHex (n : Nat) : Bytes := toRadix 14 n

/-! ### Case mapping -/

def isAsciiUpper (b : UInt8) : Bool := 65 ≤ b && b ≤ 90
def isAsciiLower (b : UInt8) : Bool := 97 ≤ b && b ≤ 122
/-- ASCII lower-casing of one byte. -/
def asciiLowerByte (b : UInt8) : UInt8 := if isAsciiUpper b then b + 32 else b
/-- ASCII upper-casing of one byte. -/
def asciiUpperByte (b : UInt8) : UInt8 := if isAsciiLower b then b - 32 else b
/-- All bytes below 0x80. -/
def isAscii (s : Bytes) : Bool := s.all (· < 0x80)

/-- `str::to_lowercase` and `str::to_uppercase` (`src/protocol.rs:1382,1393,1450,1456,1660`,
`src/url.rs:23`). Not modelled concretely: any pair of functions that agrees with ASCII case mapping on ASCII
text and whose lower-casing is idempotent. Theorems quantify over all of them. -/
class CaseMap where
  lower : Bytes → Bytes
  upper : Bytes → Bytes
  lower_ascii : ∀ s, isAscii s = true → lower s = s.map asciiLowerByte
  upper_ascii : ∀ s, isAscii s = true → upper s = s.map asciiUpperByte
  lower_idem : ∀ s, lower (lower s) = lower s

end HttpIo
