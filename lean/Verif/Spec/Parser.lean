import Verif.Model.Parser
import Verif.Spec.Headers
import Verif.Spec.Text

/-! Specification vocabulary for sequences of calls on the text parser. -/

namespace HttpIo.Spec

/-- One call on a `Parser`. -/
inductive PCall where
  | expect (e : Bytes)
  | char
  | digit
  | until (d : Bytes)
  | untilAny (ds : Bytes)
  | blanks
  | token
  | number
  | remaining
deriving DecidableEq

/-- What a call gives. -/
inductive POut where
  | unit
  | char (b : UInt8)
  | num (n : Nat)
  | text (w : Bytes)
  | fail (e : Err)
  | panic
deriving DecidableEq

/-- The outcome of a method as a `POut`. -/
def pout {α : Type} (f : α → POut) : Res α → POut
  | .ok a => f a
  | .err e => .fail e
  | .panic => .panic

/-- Making the call. -/
def pcall (p : Parser) : PCall → POut × Parser
  | .expect e => (pout (fun _ => .unit) (p.expect e).1, (p.expect e).2)
  | .char => (pout .char p.parseChar.1, p.parseChar.2)
  | .digit => (pout .num p.parseDigit.1, p.parseDigit.2)
  | .until d => (pout .text (p.parseUntil d).1, (p.parseUntil d).2)
  | .untilAny ds => (pout .text (p.parseUntilAny ds).1, (p.parseUntilAny ds).2)
  | .blanks => (pout (fun _ => .unit) p.consumeWhitespace.1, p.consumeWhitespace.2)
  | .token => (pout .text p.parseToken.1, p.parseToken.2)
  | .number => (pout .num p.parseNumber.1, p.parseNumber.2)
  | .remaining => (pout .text p.parseRemaining.1, p.parseRemaining.2)

/-- Making calls one after the other. -/
def pcalls (p : Parser) : List PCall → List POut
  | [] => []
  | k :: ks => (pcall p k).1 :: pcalls (pcall p k).2 ks

/-- Blanks only. -/
def Blank (l : Bytes) : Prop := ∀ b ∈ l, b = 32 ∨ b = 9

/-- `Gives unread call out used`: with `unread` before it, the call gives `out` and uses up the text `used`, which
is a prefix of `unread`. -/
inductive Gives : Bytes → PCall → POut → Bytes → Prop
  | expect {e rest : Bytes} : e ++ rest ≠ [] → Gives (e ++ rest) (.expect e) .unit e
  | expectNot {e l : Bytes} : l ≠ [] → ¬ e <+: l → Gives l (.expect e) (.fail .parse) []
  | char {b : UInt8} {rest : Bytes} : Gives (b :: rest) .char (.char b) [b]
  | digit {b : UInt8} {d : Nat} {rest : Bytes} : DigitVal 10 b d → Gives (b :: rest) .digit (.num d) [b]
  | digitNot {b : UInt8} {rest : Bytes} : (∀ d, ¬ DigitVal 10 b d) → Gives (b :: rest) .digit (.fail .parseInt) [b]
  | until {d w rest : Bytes} : w ++ d ++ rest ≠ [] →
      (∀ w' rest', w ++ d ++ rest = w' ++ d ++ rest' → w.length ≤ w'.length) →
      Gives (w ++ d ++ rest) (.until d) (.text w) w
  | untilNot {d l : Bytes} : l ≠ [] → (∀ w rest, l ≠ w ++ d ++ rest) → Gives l (.until d) (.fail .parse) []
  | untilAny {ds w : Bytes} {b : UInt8} {rest : Bytes} : b ∈ ds → (∀ x ∈ w, x ∉ ds) →
      Gives (w ++ b :: rest) (.untilAny ds) (.text w) w
  | untilAnyNot {ds l : Bytes} : l ≠ [] → (∀ x ∈ l, x ∉ ds) → Gives l (.untilAny ds) (.fail .parse) []
  | blanks {bl rest : Bytes} : Blank bl → ¬ StartsBlank rest → Gives (bl ++ rest) .blanks .unit bl
  | token {tok bl rest : Bytes} : tok ++ bl ++ rest ≠ [] → FirstToken (tok ++ bl ++ rest) tok → Blank bl →
      ¬ StartsBlank rest → Gives (tok ++ bl ++ rest) .token (.text tok) (tok ++ bl)
  | number {tok bl rest : Bytes} {n : Nat} : tok ++ bl ++ rest ≠ [] → FirstToken (tok ++ bl ++ rest) tok → Blank bl →
      ¬ StartsBlank rest → UnsignedText 10 tok n → n < 2 ^ 32 →
      Gives (tok ++ bl ++ rest) .number (.num n) (tok ++ bl)
  | numberNot {tok bl rest : Bytes} : tok ++ bl ++ rest ≠ [] → FirstToken (tok ++ bl ++ rest) tok → Blank bl →
      ¬ StartsBlank rest → (∀ n, UnsignedText 10 tok n → 2 ^ 32 ≤ n) →
      Gives (tok ++ bl ++ rest) .number (.fail .parseInt) (tok ++ bl)
  | ended {k : PCall} : k ≠ .blanks → k ≠ .remaining → Gives [] k (.fail .unexpectedEof) []
  | remaining {l : Bytes} : Gives l .remaining (.text l) l

/-- The results of calls on a parser of the text `unread`, of which `used` is what each call used up. After a call
of `parse_remaining` there is no text any more, not even an empty one: every further call but skipping blanks fails. -/
inductive Reads : Option Bytes → List PCall → List POut → List Bytes → Prop
  | nil (t : Option Bytes) : Reads t [] [] []
  | call {used rest : Bytes} {k : PCall} {out : POut} {ks : List PCall} {outs : List POut} {us : List Bytes} :
      Gives (used ++ rest) k out used → Reads (if k = .remaining then none else some rest) ks outs us →
      Reads (some (used ++ rest)) (k :: ks) (out :: outs) (used :: us)
  | over {k : PCall} {ks : List PCall} {outs : List POut} {us : List Bytes} : Reads none ks outs us →
      Reads none (k :: ks) ((if k = .blanks then .unit else .fail .unexpectedEof) :: outs) ([] :: us)

end HttpIo.Spec
