import Verif.Model.Server

/-! The loop of the server with the lines that it prints. -/

namespace HttpIo

section
variable [CaseMap] {c : Cfg} {η σ ρ ε ο : Type} [LawfulReader σ] [LawfulReader ρ] [ZeroReader ρ] [Writer σ] [Writer ο]

/-- `src/server.rs:241-247` with standard output, as far as the loop gets with these outcomes of `accept`. `debug` is the text that
`{:?}` makes of the error. `println!` panics if standard output does not take the line, which ends the loop as any panic does. The
line is taken to be written at once (`std` writes it in pieces, to a buffer that it flushes at the end of a line). A standard output
that is no open file at all counts as one that takes everything, which is how `std` treats it. Texts that errors carry are dropped
(`Err`), so `debug` cannot depend on them. -/
def Handler.serveForeverOn (h : Handler c η σ ρ ε) (errText debug : Err → Bytes) :
    List (Res σ) → η → ο → List (Res Unit × Option σ) × η × ο
  | [], self, out => ([], self, out)
  | a :: rest, self, out =>
    match h.serveOne errText a self with
    | (.panic, s, self) => ([(.panic, s)], self, out)
    | (.err e, s, self) =>
      match writeAll c out (b!"Error " ++ debug e ++ b!"\n") with
      | (.error _, out) => ([(.err e, s)], self, out)
      | (.ok (), out) => match h.serveForeverOn errText debug rest self out with | (rs, x) => ((.err e, s) :: rs, x)
    | (.ok (), s, self) => match h.serveForeverOn errText debug rest self out with | (rs, x) => ((.ok (), s) :: rs, x)

end

end HttpIo
