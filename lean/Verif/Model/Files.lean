import Verif.Model.Server

/-!
The file server of the crate's documentation: `FileHandler` in the example of `src/server.rs:4-68` (the handler of
`examples/server.rs:8-95` makes its paths in the same way, and adds directory listings). The file system is a parameter.
-/

namespace HttpIo

/-- What there is at a path: a directory, a file with its content, or a symbolic link with its text. -/
inductive Node where
  | dir
  | file (content : Bytes)
  | link (text : Bytes)
deriving DecidableEq, Repr

/-- The file system: what there is at each absolute path, a list of names. Simplification: no permissions, no
devices, no other process; the disk does not fail. -/
abbrev Fs : Type := List Bytes → Option Node

/-- `ENOENT`, `ENOTDIR`, `EISDIR`, `ELOOP` as `io::Error`s. -/
def notFound : Err := .io (.other 2)
def notDir : Err := .io (.other 20)
def isDir : Err := .io (.other 21)
def tooManyLinks : Err := .io (.other 40)

/-- The components of a path, as POSIX path resolution takes them: the pieces between slashes. -/
def splitPath : Bytes → List Bytes
  | [] => [[]]
  | b :: bs =>
    if b = 47 then [] :: splitPath bs
    else match splitPath bs with
      | [] => [[b]]
      | c :: cs => (b :: c) :: cs

/-- POSIX path resolution up to the first symbolic link: empty components and `.` stay, `..` goes up (and stays at the root), a
name goes down. Every component but the first is looked up in a directory, so what comes before it must be one (a link never
is: it has been followed). From a link `follow` goes on, with the components of the link before those that are left, from the
root or from where the link is. -/
def Fs.steps (fs : Fs) (follow : List Bytes → List Bytes → Except Err (List Bytes)) (cur : List Bytes) :
    List Bytes → Except Err (List Bytes)
  | [] => .ok cur
  | c :: cs =>
    match fs cur with
    | none => .error notFound
    | some (.file _) => .error notDir
    | some (.link _) => .error notFound
    | some .dir =>
      if c = [] ∨ c = b!"." then Fs.steps fs follow cur cs
      else if c = b!".." then Fs.steps fs follow cur.dropLast cs
      else match fs (cur ++ [c]) with
        | some (.link text) => follow (if text.head? = some 47 then [] else cur) (splitPath text ++ cs)
        | _ => Fs.steps fs follow (cur ++ [c]) cs

/-- POSIX path resolution in which no more than `k` symbolic links are followed. -/
def Fs.walkBy (fs : Fs) : Nat → List Bytes → List Bytes → Except Err (List Bytes)
  | 0 => fs.steps fun _ _ => .error tooManyLinks
  | k + 1 => fs.steps (Fs.walkBy fs k)

/-- POSIX path resolution; the limit is that of Linux. -/
def Fs.walk (fs : Fs) (cur cs : List Bytes) : Except Err (List Bytes) := fs.walkBy 40 cur cs

/-- Where a path leads. A path with a NUL is refused by `std`, an empty one (an empty `file_root` and a target that is empty or
of slashes) leads nowhere. Simplifications: the working directory is the root; names and paths may be of any length. -/
def Fs.resolve (fs : Fs) (path : Bytes) : Except Err (List Bytes) :=
  if (0 : UInt8) ∈ path then .error (.io .invalidInput)
  else if path = [] then .error notFound
  else fs.walk [] (splitPath path)

/-- `std::fs::File::open`. A directory can be opened; reading it fails. (At the end of a path there is no link, for it has
been followed: in a file system where what has something below it is a directory that arm is never reached.) -/
def Fs.openFile (fs : Fs) (path : Bytes) : Except Err Wire :=
  match fs.resolve path with
  | .error e => .error e
  | .ok p =>
    match fs p with
    | none => .error notFound
    | some .dir => .ok ⟨[.fault isDir]⟩
    | some (.file content) => .ok ⟨[.data content]⟩
    | some (.link _) => .error tooManyLinks

/-- The file system with a file at `p`. -/
def Fs.set (fs : Fs) (p : List Bytes) (content : Bytes) : Fs := fun q => if q = p then some (.file content) else fs q

/-- `std::fs::File::create`: where the file is; it is empty now. If a symbolic link leads to nothing, the file is made where
it leads. Simplification: for a path that ends with a slash and leads to nothing Linux says EISDIR, this says ENOENT. -/
def Fs.create (fs : Fs) (path : Bytes) : Except Err (List Bytes × Fs) :=
  match fs.resolve path with
  | .error e => .error e
  | .ok p =>
    match fs p with
    | some .dir => .error isDir
    | some (.link _) => .error tooManyLinks
    | _ => .ok (p, fs.set p [])

/-- `str::trim_start_matches("/")`. -/
def trimSlashes (uri : Bytes) : Bytes := uri.dropWhile (· == 47)

/-- `PathBuf::join` on Unix: an absolute path replaces, any other is appended, after a slash unless there is one or nothing
before it. -/
def joinPath (root path : Bytes) : Bytes :=
  if path.head? = some 47 then path
  else if root = [] ∨ root.getLast? = some 47 then root ++ path
  else root ++ [47] ++ path

variable {c : Cfg} {σ : Type} [LawfulReader σ] [ZeroReader σ]

/-- `src/server.rs:31-41`. -/
def FileHandler.get (c : Cfg) (root uri : Bytes) (fs : Fs) : Reply Err (ServerResponse c Wire) × Fs :=
  match fs.openFile (joinPath root (trimSlashes uri)) with
  | .error e => (.err e, fs)
  | .ok file => (.ok (HttpResponse.new c .OK (.B file)), fs)

/-- `src/server.rs:43-52`. `disk` is the file as it has been made, empty: it takes what is written as a `write` to a file
does, or fails. What it has taken is the content. (A `File` has no buffer, and nothing is asked of it when it is closed.) -/
def FileHandler.putOn {δ : Type} [LawfulWriter δ] (disk : δ) (root uri : Bytes) (stream : HttpBody c (BufReader c σ)) (fs : Fs) :
    Reply Err (ServerResponse c Wire) × HttpBody c (BufReader c σ) × Fs :=
  match fs.create (joinPath root (trimSlashes uri)) with
  | .error e => (.err e, stream, fs)
  | .ok (p, fs) =>
    match copy c stream disk 0 with
    | (.error e, stream, file) => (.err e, stream, fs.set p (sent file))
    | (.ok _, stream, file) => (.ok (HttpResponse.new c .OK (.B ⟨[]⟩)), stream, fs.set p (sent file))

/-- The same with a disk that takes everything. -/
def FileHandler.put (root uri : Bytes) (stream : HttpBody c (BufReader c σ)) (fs : Fs) :
    Reply Err (ServerResponse c Wire) × HttpBody c (BufReader c σ) × Fs :=
  FileHandler.putOn (Sink.mk [] 0 []) root uri stream fs

/-- `src/server.rs:15-53`: `file_root` is `root`; the other methods are the defaults; its `Error` is the crate's. -/
def fileHandler (c : Cfg) (σ : Type) [LawfulReader σ] [ZeroReader σ] (root : Bytes) (errText : Err → Bytes) :
    Handler c Fs σ Wire Err :=
  { Handler.defaults c Fs σ Wire Err (ServerResponse.ofError c errText) with
    get := FileHandler.get c root
    put := FileHandler.put root }

/-- The same on a disk that may fail. -/
def fileHandlerOn {δ : Type} [LawfulWriter δ] (disk : δ) (c : Cfg) (σ : Type) [LawfulReader σ] [ZeroReader σ] (root : Bytes)
    (errText : Err → Bytes) : Handler c Fs σ Wire Err :=
  { fileHandler c σ root errText with put := FileHandler.putOn disk root }

end HttpIo
