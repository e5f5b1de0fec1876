import Verif.Model.Files

/-!
The file server of `examples/server.rs`: like that of the documentation (`Verif/Model/Files.lean`), and it sends the length
of a file and lists directories. The file system is a parameter.
-/

namespace HttpIo

/-- `std::fs::metadata`: what there is at a path, when links have been followed. -/
def Fs.metadata (fs : Fs) (path : Bytes) : Except Err Node :=
  match fs.resolve path with
  | .error e => .error e
  | .ok p => match fs p with | none => .error notFound | some n => .ok n

/-- `examples/server.rs:46-52`: one round of the loop over the entries of the directory `p`. A name that is not UTF-8 is
passed over. `entry.metadata()` does not follow a symbolic link, so that one is not shown as a directory. Simplification: `entry?` and `entry.metadata()?` do not fail (the disk does not; that another process removes
the entry is in `listLoop`). -/
def listItem (fs : Fs) (p : List Bytes) (name : Bytes) : Bytes :=
  if validUtf8 name then
    let link := name ++ if fs (p ++ [name]) = some .dir then b!"/" else []
    b!"<li><a href=\"" ++ link ++ b!"\">" ++ name ++ b!"</a></br>"
  else []

/-- The loop of `examples/server.rs:46-52` over names that `read_dir` gave, from the `i`-th on, when other processes change the
directory meanwhile: `during i` is the file system when the `i`-th entry is looked at (`:49`, which does not follow the path
again). An entry that is gone by then is an error, which ends the loop. -/
def listLoop (during : Nat → Fs) (p : List Bytes) : Nat → List Bytes → Except Err Bytes
  | _, [] => .ok []
  | i, name :: rest =>
    if validUtf8 name then
      match during i (p ++ [name]) with
      | none => .error notFound
      | some _ =>
        match listLoop during p (i + 1) rest with
        | .error e => .error e
        | .ok more => .ok (listItem (during i) p name ++ more)
    else listLoop during p (i + 1) rest

/-- `examples/server.rs:53-68`. -/
def listPage (uri fileList : Bytes) : Bytes :=
  b!"\n                <html>\n                <title>Directory listing for " ++ uri ++
  b!"</title>\n                <h2>Directory listing for " ++ uri ++
  b!"</h2>\n                <body>\n                <hr>\n                <ul>\n                " ++ fileList ++
  b!"\n                </ul>\n                <hr>\n                </body>\n                </html>\n            "

variable {c : Cfg} {σ : Type} [LawfulReader σ] [ZeroReader σ]

section
variable [CaseMap]

/-- `examples/server.rs:40-81`. `readDir` is `std::fs::read_dir`: the names in a directory, in the order in which the
operating system gives them. `:43` finds the file system as `fs`; when `:46` or `:76` goes to the same path again, another
process may have made it `fs'`. Simplifications: it changes no more while a directory is listed; the content of a file is
that when it is opened. -/
def ListingHandler.getAmid (c : Cfg) (readDir : Fs → List Bytes → List Bytes) (root uri : Bytes) (fs fs' : Fs) :
    Reply Err (ServerResponse c Wire) × Fs :=
  let path := joinPath root (trimSlashes uri)
  match fs.metadata path with
  | .error e => (.err e, fs')
  | .ok .dir =>
    match fs'.resolve path with
    | .error e => (.err e, fs')
    | .ok p =>
      match fs' p with
      | none => (.err notFound, fs')
      | some (.file _) => (.err notDir, fs')
      | some (.link _) => (.err notDir, fs')
      | some .dir =>
        let fileList := ((readDir fs' p).map (listItem fs' p)).flatten
        (.ok (HttpResponse.new c .OK (.A (Cursor.new (listPage uri fileList)))), fs')
  | .ok (.link _) => (.err tooManyLinks, fs')
  | .ok (.file content) =>
    match fs'.openFile path with
    | .error e => (.err e, fs')
    | .ok file =>
      let res : ServerResponse c Wire := HttpResponse.new c .OK (.B file)
      (.ok (res.addHeader b!"Content-Length" (showDec content.length)), fs')

/-- `examples/server.rs:40-81`, when no other process changes the file system. -/
def ListingHandler.get (c : Cfg) (readDir : Fs → List Bytes → List Bytes) (root uri : Bytes) (fs : Fs) :
    Reply Err (ServerResponse c Wire) × Fs :=
  ListingHandler.getAmid c readDir root uri fs fs

/-- `examples/server.rs:40-81` for a directory, when other processes change what is in it while it is listed: `fs` is the file
system up to and with `read_dir` (`:46`), then it is `during`. Simplification: the directory is read at once. For anything
else this is `get`. -/
def ListingHandler.getDuring (c : Cfg) (readDir : Fs → List Bytes → List Bytes) (during : Nat → Fs) (root uri : Bytes) (fs : Fs) :
    Reply Err (ServerResponse c Wire) × Fs :=
  match fs.resolve (joinPath root (trimSlashes uri)) with
  | .error e => (.err e, fs)
  | .ok p =>
    if fs p = some .dir then
      match listLoop during p 0 (readDir fs p) with
      | .error e => (.err e, during (readDir fs p).length)
      | .ok fileList =>
        (.ok (HttpResponse.new c .OK (.A (Cursor.new (listPage uri fileList)))), during (readDir fs p).length)
    else ListingHandler.get c readDir root uri fs

/-- `examples/server.rs:37-94`: `file_root` is `root`; `put` (`:83-93`) does what that of the documentation does; the other
methods are the defaults; every error becomes a 500 response (`:31-35`; `errText` is its text). -/
def listingHandler (c : Cfg) (σ : Type) [LawfulReader σ] [ZeroReader σ] (readDir : Fs → List Bytes → List Bytes)
    (root : Bytes) (errText : Err → Bytes) : Handler c Fs σ Wire Err :=
  { Handler.defaults c Fs σ Wire Err (fun e => ServerResponse.fromString c .InternalServerError (errText e)) with
    get := ListingHandler.get c readDir root
    put := FileHandler.put root }

/-- The same server when another process changes the file system, as `between` says, after `:43`. -/
def listingHandlerAmid (c : Cfg) (σ : Type) [LawfulReader σ] [ZeroReader σ] (readDir : Fs → List Bytes → List Bytes)
    (between : Fs → Fs) (root : Bytes) (errText : Err → Bytes) : Handler c Fs σ Wire Err :=
  { listingHandler c σ readDir root errText with
    get := fun uri fs => ListingHandler.getAmid c readDir root uri fs (between fs) }

/-- The same server when other processes change what is in a directory while it is listed. -/
def listingHandlerDuring (c : Cfg) (σ : Type) [LawfulReader σ] [ZeroReader σ] (readDir : Fs → List Bytes → List Bytes)
    (during : Nat → Fs) (root : Bytes) (errText : Err → Bytes) : Handler c Fs σ Wire Err :=
  { listingHandler c σ readDir root errText with
    get := ListingHandler.getDuring c readDir during root }

end

end HttpIo
