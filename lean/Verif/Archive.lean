import Verif.Types
/-!
# The files of a task on their way into its container — model of `/repo/runtime/docker/archive.go` and `tcontainer.go:520-578`

`initTorkdir` and `initWorkDir` write files to an archive on disk and hand it to Docker, which reads it. The writer is Go's `archive/tar`: a file
is a header, its contents and zeros up to a multiple of 512, but these zeros are only written before the next header or when the archive is closed, and it is
never closed. How a header is written and read is a parameter.
-/

namespace Tork.Archive

abbrev Bytes := List UInt8

/-- The format: how a header is written, if it can be (`tar.Writer.WriteHeader`), and what a reader takes from the front of a stream
(`none`: there is no header). -/
structure Format where
  hdr : String → Nat → Nat → Option Bytes
  parse : Bytes → Option ((String × Nat × Nat) × Bytes)

/-- What is assumed of it. -/
structure Format.Good (F : Format) : Prop where
  back : ∀ n m s b rest, F.hdr n m s = some b → F.parse (b ++ rest) = some ((n, m, s), rest)
  none : F.parse [] = none

/-- The zeros to a multiple of 512. -/
def padding (n : Nat) : Nat := (512 - n % 512) % 512

/-- The archive while it is written: the file on disk and the zeros still to be written. -/
structure Arch where
  disk : Bytes := []
  pad : Nat := 0

structure File where
  name : String
  mode : Nat
  contents : Bytes
  deriving DecidableEq

/-- `WriteFile` (`archive.go:58-71`); `none` is an error, also if the disk fails (which is not modelled: then nothing is copied). -/
def writeFile (F : Format) (f : File) (a : Arch) : Option Arch :=
  match F.hdr f.name f.mode f.contents.length with
  | none => none
  | some h => some { disk := a.disk ++ List.replicate a.pad 0 ++ h ++ f.contents, pad := padding f.contents.length }

/-- Files one after the other; the first error ends it (`tcontainer.go:567-571`). -/
def writeFiles (F : Format) : List File → Arch → Option Arch
  | [], a => some a
  | f :: fs, a => match writeFile F f a with
    | none => none
    | some a' => writeFiles F fs a'

/-- The files of `/tork` (`tcontainer.go:532-543`). -/
def torkdir (run : Bytes) : List File :=
  [{ name := "stdout", mode := 0o222, contents := [] }, { name := "progress", mode := 0o222, contents := [] }] ++
    if run ≠ [] then [{ name := "entrypoint", mode := 0o555, contents := run }] else []

/-- The files of the working directory, in some order of Go's map (`tcontainer.go:567-571`). -/
def workdir (files : List (String × Bytes)) : List File := files.map fun (n, c) => { name := n, mode := 0o444, contents := c }

/-- The reading side of `archive` (`archive.go:32-48`). -/
inductive Reader
  /-- nothing read yet -/
  | fresh
  /-- this much is still to come -/
  | reading (rest : Bytes)
  /-- the end has been seen, the file is closed -/
  | closed
  deriving DecidableEq

/-- What a call of `Read` answers. -/
inductive Answer
  | bytes (b : Bytes)
  | eof
  | error
  deriving DecidableEq

/-- A call of `Read` for at most `k` bytes. -/
inductive Read (disk : Bytes) (k : Nat) : Reader → Answer → Reader → Prop
  /-- the file is opened again and read from its beginning -/
  | first (ans : Answer) (r : Reader) : Read disk k (.reading disk) ans r → Read disk k .fresh ans r
  /-- some bytes -/
  | some (b rest : Bytes) : b ≠ [] → b.length ≤ k → Read disk k (.reading (b ++ rest)) (.bytes b) (.reading rest)
  /-- the end -/
  | eof : Read disk k (.reading []) .eof .closed
  /-- after the end -/
  | over : Read disk k .closed .error .closed

/-- Reading until the end: what a client has got. -/
inductive ReadAll (disk : Bytes) : Reader → Bytes → Prop
  | done (r r' : Reader) (k : Nat) : Read disk k r .eof r' → ReadAll disk r []
  | more (r r' : Reader) (k : Nat) (b all : Bytes) : Read disk k r (.bytes b) r' → ReadAll disk r' all → ReadAll disk r (b ++ all)

/-- The length of contents with the zeros, as the format has it: the next multiple of 512. -/
def rounded (l : Nat) : Nat := (l + 511) / 512 * 512

/-- What Go's `tar.Reader` takes from a stream: a missing end of the zeros is the end of the archive. A header whose contents are missing is an
error: then there is no list. -/
inductive Unpack (F : Format) : Bytes → List File → Prop
  | stop (s : Bytes) : F.parse s = none → Unpack F s []
  | last (s rest : Bytes) (n : String) (m l : Nat) : F.parse s = some ((n, m, l), rest) → l ≤ rest.length → rest.length - l < rounded l - l →
      Unpack F s [{ name := n, mode := m, contents := rest.take l }]
  | next (s rest : Bytes) (n : String) (m l : Nat) (fs : List File) : F.parse s = some ((n, m, l), rest) → rounded l ≤ rest.length →
      Unpack F (rest.drop (rounded l)) fs → Unpack F s ({ name := n, mode := m, contents := rest.take l } :: fs)

end Tork.Archive
