import Verif.Provider.Json

/-!
# Key stores

Model of `bccsp/keystore/kvsbased.go`, `bccsp/keystore/dummy.go` and `bccsp/keystore/kvs/filebased.go`.

The disk maps paths to contents. Writing a file opens it (which empties it) and then writes its bytes in order; it
can fail or be cut off by a crash at any point in between. Files are identified by their cleaned path: symbolic
links, case-insensitive file systems and other processes are not modelled, and what was written survives the crash
of the process.
-/

namespace Idemix.Provider

variable {S : Suite}

/-! ## The key store over a KVS (`kvsbased.go`) -/

variable (B : Backend S)

/-- What `StoreKey` passes to `Put` (`kvsbased.go:91-121`): name and entry. Only user and pseudonym secrets are
supported. The name of a pseudonym is made from its public key. -/
def entryOf (k : Key B) : Res (Bytes × Entry) :=
  match k with
  | .nymSk ski sk pk exportable => do
    let pub ← Key.publicKey (.nymSk ski sk pk exportable : Key B)
    let id ← pub.ski
    pure (hexOf id, { nym := some ⟨ski, S.zrBytes sk, some (B.T.g1ToProto pk), exportable⟩ })
  | .userSk sk exportable => do
    let id ← Key.ski (.userSk sk exportable : Key B)
    pure (hexOf id, { user := some ⟨S.zrBytes sk, exportable⟩ })
  | _ => .err "unknown type for the supplied key"

/-- What `GetKey` makes of an entry (`kvsbased.go:65-86`). -/
def keyOfEntry (e : Entry) : Res (Key B) :=
  match e.nym, e.user with
  | some n, _ => do
    let pk ← B.T.g1FromProto n.pk
    pure (.nymSk n.ski (S.zrOfBytes n.sk) pk n.exportable)
  | none, some u => .ok (.userSk (S.zrOfBytes u.sk) u.exportable)
  | none, none => .err "key not found"

/-- The interface `KVS` (`kvsbased.go:20-23`). -/
structure Kvs (σ : Type) where
  put : σ → Bytes → Entry → σ × Res Unit
  get : σ → Bytes → Res Entry

/-- `KVSStore` (`kvsbased.go:43-121`). -/
def kvsStore {σ : Type} (K : Kvs σ) : KeyStore B σ where
  get s ski := do
    let e ← wrapErr "could not get key from kvs" (K.get s (hexOf ski))
    keyOfEntry B e
  store s k :=
    match entryOf B k with
    | .ok (id, e) => K.put s id e
    | .err m => (s, .err m)
    | .panic => (s, .panic)

/-- `Dummy` (`dummy.go:16-34`). -/
def dummyStore : KeyStore B Unit where
  get _ _ := .err "key not found. This is a dummy KeyStore"
  store _ _ := ((), .err "cannot store key. This is a dummy read-only KeyStore")

/-! ## The file system -/

/-- Regular files with their contents, and directories. -/
structure Disk where
  file : Bytes → Option Bytes
  isDir : Bytes → Bool

/-- Replacing the contents of a file. -/
def Disk.set (d : Disk) (p b : Bytes) : Disk := { d with file := fun q => if q = p then some b else d.file q }

/-- How far the writing of a file gets: `opened` is false if it stops before the file is opened (or the opening
fails); otherwise `written` bytes have been written when it stops. -/
structure Cut where
  opened : Bool
  written : Nat

/-- The disk when `os.WriteFile` is cut off. -/
def Disk.writeCut (d : Disk) (p b : Bytes) (c : Cut) : Disk :=
  if d.isDir p then d else if c.opened then d.set p (b.take c.written) else d

/-- `os.WriteFile`; `fault` tells whether and where a system call fails. -/
def Disk.writeFile (d : Disk) (p b : Bytes) (fault : Option Cut) : Disk × Res Unit :=
  match fault with
  | none => if d.isDir p then (d, .err "is a directory") else (d.set p b, .ok ())
  | some c => (d.writeCut p b c, .err "write failed")

/-- `os.ReadFile`. -/
def Disk.readFile (d : Disk) (p : Bytes) : Res Bytes :=
  if d.isDir p then .err "is a directory" else Res.ofOption "no such file" (d.file p)

/-- Outcome of `os.Stat`. -/
inductive Stat where
  | regular | directory | notExist
  /-- Any other error, e.g. a missing permission: no file information. -/
  | failed

/-- `NewFileBased` (`filebased.go:20-37`): the condition in line 23 dereferences the file information unless the
error is "not exist". -/
def newFileBased (stat : Stat) (mkdir : Res Unit) : Res Unit :=
  match stat with
  | .regular => .err "invalid path: it's a file"
  | .directory => .ok ()
  | .failed => .panic
  | .notExist => wrapErr "could not create path" mkdir

variable (dir : Bytes)

/-- `FileBasedKVS.Put` (`filebased.go:39-52`). -/
def filePut (d : Disk) (id : Bytes) (e : Entry) (fault : Option Cut) : Disk × Res Unit :=
  match d.writeFile (joinPath dir id) (entryText e) fault with
  | (d', r) => (d', wrapErr "writing failed" r)

/-- The disk when `FileBasedKVS.Put` is cut off by a crash. -/
def filePutCut (d : Disk) (id : Bytes) (e : Entry) (c : Cut) : Disk := d.writeCut (joinPath dir id) (entryText e) c

/-- `FileBasedKVS.Get` (`filebased.go:54-67`). -/
def fileGet (d : Disk) (id : Bytes) : Res Entry := do
  let b ← wrapErr "could not read file" (d.readFile (joinPath dir id))
  wrapErr "could not unmarshal bytes" (jsonEntry b)

/-- The file-based KVS when no system call fails. -/
def fileKvs : Kvs Disk where
  put d id e := filePut dir d id e none
  get d id := fileGet dir d id

/-- `KVSStore.StoreKey` (`kvsbased.go:91-121`) on the file-based KVS, when a system call may fail. -/
def storeKeyFaulty (d : Disk) (k : Key B) (fault : Option Cut) : Disk × Res Unit :=
  (kvsStore B ⟨fun d id e => filePut dir d id e fault, fileGet dir⟩).store d k

/-! ## Histories with faults and crashes -/

/-- One `StoreKey` on the file-based store: complete, failing in a system call, or cut off by a crash of the
process (after which a new process opens the same directory; nothing is kept in memory). -/
inductive StoreEvent where
  | complete (k : Key B)
  | fault (k : Key B) (c : Cut)
  | crash (k : Key B) (c : Cut)

/-- The effect on the disk. -/
def storeEvent (d : Disk) (ev : StoreEvent B) : Disk :=
  match ev with
  | .complete k => ((kvsStore B (fileKvs dir)).store d k).1
  | .fault k c =>
    match entryOf B k with
    | .ok (id, e) => (filePut dir d id e (some c)).1
    | _ => d
  | .crash k c =>
    match entryOf B k with
    | .ok (id, e) => filePutCut dir d id e c
    | _ => d

end Idemix.Provider
