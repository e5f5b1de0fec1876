import Verif.Model.Files

/-! Specification vocabulary for the file server. -/

namespace HttpIo.Spec

/-- `path` is the components `cs`, none of which has a slash, with slashes between them. -/
inductive PathText : Bytes → List Bytes → Prop
  | last {c : Bytes} : (47 : UInt8) ∉ c → PathText c [c]
  | more {c path : Bytes} {cs : List Bytes} : (47 : UInt8) ∉ c → PathText path cs → PathText (c ++ [47] ++ path) (c :: cs)

/-- A component that is a name. -/
def IsName (c : Bytes) : Prop := c ≠ [] ∧ c ≠ b!"." ∧ c ≠ b!".."

/-- Who follows the components `cs` from the place `cur` comes, over `n` symbolic links, to the place `p` where `rest` is left
to follow. -/
inductive Comes (fs : Fs) : Nat → List Bytes → List Bytes → List Bytes → List Bytes → Prop
  | here {p rest : List Bytes} : Comes fs 0 p rest p rest
  | stay {n : Nat} {cur cs p rest : List Bytes} {c : Bytes} : fs cur = some .dir → (c = [] ∨ c = b!".") →
      Comes fs n cur cs p rest → Comes fs n cur (c :: cs) p rest
  | up {n : Nat} {cur cs p rest : List Bytes} : fs cur = some .dir → Comes fs n cur.dropLast cs p rest →
      Comes fs n cur (b!".." :: cs) p rest
  | down {n : Nat} {cur cs p rest : List Bytes} {c : Bytes} : fs cur = some .dir → IsName c →
      (∀ text, fs (cur ++ [c]) ≠ some (.link text)) → Comes fs n (cur ++ [c]) cs p rest → Comes fs n cur (c :: cs) p rest
  | relative {n : Nat} {cur cs p rest ts : List Bytes} {c text : Bytes} : fs cur = some .dir → IsName c →
      fs (cur ++ [c]) = some (.link text) → text.head? ≠ some 47 → PathText text ts → Comes fs n cur (ts ++ cs) p rest →
      Comes fs (n + 1) cur (c :: cs) p rest
  | absolute {n : Nat} {cur cs p rest ts : List Bytes} {c text : Bytes} : fs cur = some .dir → IsName c →
      fs (cur ++ [c]) = some (.link text) → text.head? = some 47 → PathText text ts → Comes fs n [] (ts ++ cs) p rest →
      Comes fs (n + 1) cur (c :: cs) p rest

/-- From the place `cur` the components lead to `p`, over no more symbolic links than the operating system follows. -/
def Leads (fs : Fs) (cur cs p : List Bytes) : Prop := ∃ n ≤ 40, Comes fs n cur cs p []

/-- The path `root` leads to the directory `R`, over no symbolic link (as that of the working directory does, which both
servers are given: `src/server.rs:56`, `examples/server.rs:97`). -/
def RootAt (fs : Fs) (root : Bytes) (R : List Bytes) : Prop :=
  (0 : UInt8) ∉ root ∧ root ≠ [] ∧ fs R = some .dir ∧ ∃ cs, PathText root cs ∧ Comes fs 0 [] cs R []

/-- There is a file at `p`, or nothing. -/
def Storable (fs : Fs) (p : List Bytes) : Prop := fs p = none ∨ ∃ content, fs p = some (.file content)

/-- There is no symbolic link at `R` or below it. -/
def NoLinks (fs : Fs) (R : List Bytes) : Prop := ∀ q, R <+: q → ∀ text, fs q ≠ some (.link text)

/-- The request target: any number of slashes, then the components. -/
def TargetText (target : Bytes) (cs : List Bytes) : Prop :=
  ∃ k path, target = List.replicate k 47 ++ path ∧ path.head? ≠ some 47 ∧ PathText path cs

/-- The components never lead above where they start: no beginning of them has more `..` than names. -/
def Stays (cs : List Bytes) : Prop :=
  ∀ pre, pre <+: cs → pre.countP (· = b!"..") ≤ pre.countP fun c => c ≠ [] ∧ c ≠ b!"." ∧ c ≠ b!".."

/-- Every symbolic link at `R` or below it leads down from where it is: it is relative and has no `..`. -/
def LinksDown (fs : Fs) (R : List Bytes) : Prop :=
  ∀ q text, R <+: q → fs q = some (.link text) → text.head? ≠ some 47 ∧ ∀ ts, PathText text ts → b!".." ∉ ts

/-- Nothing leads out of `R`: there are no symbolic links and the components stay, or there are only such links as lead down,
and no `..`. -/
def Confined (fs : Fs) (R cs : List Bytes) : Prop := (NoLinks fs R ∧ Stays cs) ∨ (LinksDown fs R ∧ b!".." ∉ cs)

end HttpIo.Spec
