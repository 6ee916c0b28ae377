import Verif.Provider.KeyStore

/-!
# Calls of the file-based key store that run at the same time

`KVSStore` and `FileBasedKVS` hold no lock (`bccsp/keystore/kvsbased.go:43-47`, `kvs/filebased.go:16-18`), so calls of
`StoreKey` and `GetKey` by several goroutines, or by several processes with the same directory, interleave at the
system calls of `os.WriteFile` and `os.ReadFile`. `os.WriteFile` opens the file, which creates or empties it, and
writes the bytes from offset 0 in chunks of any size; `os.ReadFile` opens the file and reads chunks of any size until
the end of the file. Each chunk is read or written at once; since chunks may be single bytes, this covers system calls
that are not atomic. Nothing removes files or directories.
-/

namespace Idemix.Provider

variable {S : Suite} (B : Backend S)

/-- A call of the key store: `StoreKey` (`kvsbased.go:91-121`) or `GetKey` (`kvsbased.go:56-87`). -/
inductive KOp where
  | store (k : Key B)
  | look (ski : Bytes)

/-- How far a call has got. The path, and the text to be written, are determined by the call. -/
inductive KSt where
  /-- Nothing has been done. -/
  | start
  /-- The file is open and so many bytes have been written. -/
  | writing (off : Nat)
  /-- The file is open and these bytes have been read. -/
  | reading (acc : Bytes)
  /-- `StoreKey` has returned. -/
  | stored (r : Res Unit)
  /-- `GetKey` has returned. -/
  | looked (r : Res (Key B))
  /-- A system call failed and the call returned that error. -/
  | failed

/-- A call in progress. -/
structure KCall where
  op : KOp B
  st : KSt B

/-- What the scheduler lets a call do: go on, reading or writing at most `n` bytes, or meet a failing system call. -/
inductive KAct where
  | go (n : Nat)
  | fail

/-- `write(2)` at an offset of the handle: beyond the end of the file the gap is filled with zeros. -/
def overlay (c : Bytes) (off : Nat) (w : Bytes) : Bytes :=
  if w = [] then c else c.take off ++ (List.replicate (off - c.length) 0 ++ (w ++ c.drop (off + w.length)))

variable {B} (dir : Bytes)

/-- What `GetKey` makes of the bytes it has read (`filebased.go:61-64`, `kvsbased.go:60-86`). -/
def lookResult (b : Bytes) : Res (Key B) := do
  let e ← wrapErr "could not get key from kvs" (wrapErr "could not unmarshal bytes" (jsonEntry b))
  keyOfEntry B e

/-- One step of `StoreKey`: `entryOf` and the opening of the file; a chunk; or the return (`kvsbased.go:91-121`,
`filebased.go:39-52`). -/
def storeStep (d : Disk) (k : Key B) (st : KSt B) (n : Nat) : Disk × KSt B :=
  match entryOf B k with
  | .ok (id, e) =>
    match st with
    | .start =>
      if d.isDir (joinPath dir id) then (d, .stored (.err "writing failed"))
      else (d.set (joinPath dir id) [], .writing 0)
    | .writing off =>
      if off < (entryText e).length then
        (d.set (joinPath dir id) (overlay ((d.file (joinPath dir id)).getD []) off (((entryText e).drop off).take n)),
          .writing (off + (((entryText e).drop off).take n).length))
      else (d, .stored (.ok ()))
    | st => (d, st)
  | .err m => (d, .stored (.err m))
  | .panic => (d, .stored .panic)

/-- One step of `GetKey`: the opening of the file; a chunk; or the return (`kvsbased.go:56-87`,
`filebased.go:54-67`). -/
def lookStep (d : Disk) (ski : Bytes) (st : KSt B) (n : Nat) : KSt B :=
  match st with
  | .start =>
    if d.isDir (joinPath dir (hexOf ski)) then .looked (.err "could not get key from kvs")
    else match d.file (joinPath dir (hexOf ski)) with
      | none => .looked (.err "could not get key from kvs")
      | some _ => .reading []
  | .reading acc =>
    if acc.length < ((d.file (joinPath dir (hexOf ski))).getD []).length then
      .reading (acc ++ (((d.file (joinPath dir (hexOf ski))).getD []).drop acc.length).take n)
    else .looked (lookResult acc)
  | st => st

/-- One step of a call. A call that has returned does nothing. -/
def callStep (d : Disk) (c : KCall B) (a : KAct) : Disk × KCall B :=
  match c.st with
  | .stored _ | .looked _ | .failed => (d, c)
  | st =>
    match a with
    | .fail => (d, ⟨c.op, .failed⟩)
    | .go n =>
      match c.op with
      | .store k => ((storeStep dir d k st n).1, ⟨c.op, (storeStep dir d k st n).2⟩)
      | .look ski => (d, ⟨c.op, lookStep dir d ski st n⟩)

/-- The disk and the calls. -/
structure KSys (B : Backend S) where
  disk : Disk
  calls : List (KCall B)

/-- One step of the system: the scheduler picks a call. -/
def sysStep (s : KSys B) (x : Nat × KAct) : KSys B :=
  match s.calls[x.1]? with
  | none => s
  | some c => ⟨(callStep dir s.disk c x.2).1, s.calls.set x.1 (callStep dir s.disk c x.2).2⟩

/-- The calls `ops` on a disk, run with a schedule. A call that the schedule leaves unfinished is one whose process
has crashed, or that still runs. -/
def runCalls (d : Disk) (ops : List (KOp B)) (sched : List (Nat × KAct)) : KSys B :=
  sched.foldl (sysStep dir) ⟨d, ops.map fun o => ⟨o, .start⟩⟩

end Idemix.Provider
