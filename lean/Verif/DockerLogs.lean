/-!
# Container logs — model of `/repo/runtime/docker/docker.go:333-350` and its uses, `tcontainer.go:286, 311, 396`

The daemon sends the output of a container as frames: a header of eight bytes (stream, three zeros, length of the data, big endian), then
the data. `dockerLogsReader` removes the headers; `io.Copy` (log of the task) and `io.ReadAll` (text of the error of a failed task) read
from it.
-/

namespace Tork.DockerLogs

/-! ## The stream -/

/-- Four bytes, big endian. -/
def be32 (n : Nat) : List UInt8 :=
  [UInt8.ofNat (n / 2 ^ 24), UInt8.ofNat (n / 2 ^ 16 % 256), UInt8.ofNat (n / 2 ^ 8 % 256), UInt8.ofNat (n % 256)]

/-- What the container has written at once to stdout (1) or stderr (2). -/
structure Frame where
  stream : UInt8
  data : List UInt8

/-- A frame as sent by the daemon. -/
def Frame.bytes (f : Frame) : List UInt8 := [f.stream, 0, 0, 0] ++ be32 f.data.length ++ f.data

/-- The length fits into the header. -/
def Frame.Valid (f : Frame) : Prop := f.data.length < 2 ^ 32

/-- The body of the daemon's answer. -/
def stream (fs : List Frame) : List UInt8 := fs.flatMap Frame.bytes

/-- What the container has written. -/
def written (fs : List Frame) : List UInt8 := fs.flatMap Frame.data

/-! ## Readers -/

/-- Contract of `io.Reader`: reading `s` into a buffer of `k` bytes gives `d`, leaves `s'`; `eof` is the error `io.EOF`. At least one byte is
read if there is one and room for it; the end may be reported together with the last bytes. -/
structure Read (s : List UInt8) (k : Nat) (d s' : List UInt8) (eof : Bool) : Prop where
  split : s = d ++ s'
  room : d.length ≤ k
  some : s ≠ [] → 0 < k → d ≠ []
  atEnd : eof = true → s' = []
  nothing : s = [] → eof = true

/-- A reader that fills the buffer if it can (`bytes.Reader`, `bufio.Reader` of enough size; not guaranteed for a network
connection). -/
def Read.Whole (s : List UInt8) (k : Nat) (d s' : List UInt8) (eof : Bool) : Prop := Read s k d s' eof ∧ d = s.take k

/-- A kind of reader. -/
abbrev Reader := List UInt8 → Nat → List UInt8 → List UInt8 → Bool → Prop

/-- A buffer of `k` bytes, zero at first, after `d` has been read into it. -/
def fill (k : Nat) (d : List UInt8) : List UInt8 := d ++ List.replicate (k - d.length) 0

/-- `binary.BigEndian.Uint32(hdr[4:8])` -/
def count (hdr : List UInt8) : Nat :=
  (hdr.getD 4 0).toNat * 2 ^ 24 + (hdr.getD 5 0).toNat * 2 ^ 16 + (hdr.getD 6 0).toNat * 2 ^ 8 + (hdr.getD 7 0).toNat

/-- `dockerLogsReader.Read` (`docker.go:333-350`) into a buffer of `cap` bytes: `out` is what is put there, `alloc` the size of the
buffer allocated for the data. Errors other than the end of the stream: `Copied.broken`. -/
inductive LogRead (R : Reader) (s : List UInt8) (cap : Nat) : (alloc : Nat) → (out s' : List UInt8) → (eof : Bool) → Prop
  | mk {h s1 d s2 : List UInt8} {e1 e2 : Bool} : R s 8 h s1 e1 → R s1 (count (fill 8 h)) d s2 e2 →
      LogRead R s cap (count (fill 8 h)) ((fill (count (fill 8 h)) d).take cap) s2 e2

/-- `io.Copy` with its buffer of `cap` bytes (32 KiB in Go): `out` is written to the log; `ok`: without an error. -/
inductive Copied (R : Reader) (cap : Nat) : (s out : List UInt8) → (ok : Bool) → Prop
  | last {s o s' : List UInt8} {n : Nat} : LogRead R s cap n o s' true → Copied R cap s o true
  | more {s o s' out : List UInt8} {n : Nat} {ok : Bool} : LogRead R s cap n o s' false → Copied R cap s' out ok → Copied R cap s (o ++ out) ok
  /-- the connection breaks -/
  | broken {s : List UInt8} : Copied R cap s [] false

/-- `io.ReadAll`: `acc` has been read so far into a buffer of `cap` bytes, which grows when it is full. -/
inductive ReadAll (R : Reader) (grow : Nat → Nat) : (acc : List UInt8) → (cap : Nat) → (s out : List UInt8) → Prop
  | last {acc s o s' : List UInt8} {cap n : Nat} : LogRead R s (cap - acc.length) n o s' true → ReadAll R grow acc cap s (acc ++ o)
  | more {acc s o s' out : List UInt8} {cap n : Nat} : LogRead R s (cap - acc.length) n o s' false →
      ReadAll R grow (acc ++ o) (if (acc ++ o).length = cap then grow cap else cap) s' out → ReadAll R grow acc cap s out

/-- `io.Copy`'s buffer -/
def copyBuf : Nat := 32 * 1024
/-- `io.ReadAll`'s first buffer -/
def firstBuf : Nat := 512

end Tork.DockerLogs
