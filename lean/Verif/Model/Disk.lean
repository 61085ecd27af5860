import Verif.Model.Serialize
import Verif.Model.Wrapped
/-!
# `to_bytes`, `from_bytes`, `to_disk`, `from_disk`, `can_from_bytes`, `can_from_disk` (thinc/model.py lines 550-569, 628-647, 679-700)

Simplifications, for the whole file:
* `srsly.msgpack_dumps` and `srsly.msgpack_loads` are a parameter (`Codec`), as are the conversions of arrays to little-endian numpy arrays
  and back (`ArrayIO`); the arrays of a message are its parameters (attributes and shims are bytes at this point);
* a file system is a map from paths to files and directories; directories are neither created nor removed, files are not removed, and
  the parent directory of a path exists;
* a file that is being written grows byte by byte: a file object may hand its bytes over in larger pieces, so every state of the file that
  can be observed or left by a crash is among those of the model.
-/
namespace Thinc
variable {V A S B Sh H : Type}

open Wrapped (Bytes Codec)

/-- The conversions of arrays on the way to bytes and back. -/
structure ArrayIO (V H : Type) where
  /-- `self.ops.to_numpy(array, byte_order="<")`, model.py:559 -/
  toNumpyLe : V → H
  /-- `self.ops.asarray(array)`, model.py:637 -/
  asarray : H → V

/-- `convert_recursive(is_xp_array, f, msg)`, model.py:560 and 637, on a message: `f` is applied to its arrays. -/
def Msg.mapArrays {V' : Type} (f : V → V') (m : Msg V B) : Msg V' B where
  nodes := m.nodes
  attrs := m.attrs
  params := m.params.map fun d => d.map fun p => (p.1, p.2.map f)
  shims := m.shims

/-- `to_bytes`, model.py:550-561. -/
def modelToBytes (ops : SerOps V A S B Sh) (io : ArrayIO V H) (msgpack : Codec (Msg H B)) (s : LoadState V A S) (self : Addr) :
    Except PyErr Bytes :=
  match toDict ops s self with
  | .error e => .error e
  | .ok msg => .ok (msgpack.dumps (msg.mapArrays io.toNumpyLe))

/-- `from_bytes`, model.py:628-638: the state afterwards and the result. -/
def modelFromBytes (ops : SerOps V A S B Sh) (io : ArrayIO V H) (msgpack : Codec (Msg H B)) (s : LoadState V A S) (self : Addr)
    (data : Bytes) : LoadState V A S × Except PyErr Unit :=
  match msgpack.loads data with
  | .error e => (s, .error e)
  | .ok msg => fromDict ops s self (msg.mapArrays io.asarray)

/-- `can_from_bytes`, model.py:691-700.  The code does not convert the arrays of the message; only their shapes are read. -/
def canFromBytes [DecidableEq B] [DecidableEq Sh] (ops : SerOps V A S B Sh) (io : ArrayIO V H) (msgpack : Codec (Msg H B))
    (s : LoadState V A S) (self : Addr) (data : Bytes) (strict : Bool) : Except PyErr Bool :=
  match msgpack.loads data with
  | .error .valueError => .ok false
  | .error e => .error e
  | .ok msg => canFromDict ops s self (msg.mapArrays io.asarray) strict

/-- What a path of the file system leads to. -/
inductive Entry where
  | file (data : Bytes)
  | dir
  deriving DecidableEq

/-- A file system. -/
abbrev Disk := PyDict Nat Entry

/-- One step of writing a file. -/
inductive DiskOp where
  /-- `path.open("wb")`, model.py:568: the file is created, or emptied if it exists -/
  | create (path : Nat)
  /-- one byte of `file_.write(...)`, model.py:569, at the position that this file object has reached -/
  | write (path offset : Nat) (byte : BitVec 8)
  deriving DecidableEq

/-- The path of a step. -/
def DiskOp.path : DiskOp → Nat
  | .create p => p
  | .write p _ _ => p

/-- A byte at a position of a file: it replaces the byte there or extends the file, with zeros in between if the file has been emptied
by someone else in the meantime. -/
def writeAt (data : Bytes) (offset : Nat) (byte : BitVec 8) : Bytes :=
  if offset < data.length then data.set offset byte else data ++ List.replicate (offset - data.length) 0 ++ [byte]

/-- The effect of a step on the file system. -/
def DiskOp.run (d : Disk) (op : DiskOp) : Disk :=
  match op with
  | .create p => match d.get? p with
    | some .dir => d
    | _ => d.set p (.file [])
  | .write p o b => match d.get? p with
    | some (.file data) => d.set p (.file (writeAt data o b))
    | _ => d

/-- The effect of several steps. -/
def runOps (d : Disk) (l : List DiskOp) : Disk := l.foldl DiskOp.run d

/-- `file_.write(data)`, the bytes from position `offset` on. -/
def writeSteps (path : Nat) : Nat → Bytes → List DiskOp
  | _, [] => []
  | offset, b :: bs => .write path offset b :: writeSteps path (offset + 1) bs

/-- `to_disk`, model.py:563-569, as the steps it takes on the file system and its result.  The file is opened, and so emptied, before
`to_bytes` is called.  21 is IsADirectoryError. -/
def toDiskSteps (ops : SerOps V A S B Sh) (io : ArrayIO V H) (msgpack : Codec (Msg H B)) (s : LoadState V A S) (self : Addr) (d : Disk)
    (path : Nat) : List DiskOp × Except PyErr Unit :=
  match d.get? path with
  | some .dir => ([], .error (.userError 21))
  | _ => match modelToBytes ops io msgpack s self with
    | .error e => ([.create path], .error e)
    | .ok data => (.create path :: writeSteps path 0 data, .ok ())

/-- `to_disk`: the file system afterwards and the result. -/
def modelToDisk (ops : SerOps V A S B Sh) (io : ArrayIO V H) (msgpack : Codec (Msg H B)) (s : LoadState V A S) (self : Addr) (d : Disk)
    (path : Nat) : Disk × Except PyErr Unit :=
  let p := toDiskSteps ops io msgpack s self d path
  (runOps d p.1, p.2)

/-- `path.open("rb")` and `file_.read()`: 2 is FileNotFoundError, 21 is IsADirectoryError. -/
def readFile (d : Disk) (path : Nat) : Except PyErr Bytes :=
  match d.get? path with
  | none => .error (.userError 2)
  | some .dir => .error (.userError 21)
  | some (.file data) => .ok data

/-- `from_disk`, model.py:640-647: the state afterwards and the result. -/
def modelFromDisk (ops : SerOps V A S B Sh) (io : ArrayIO V H) (msgpack : Codec (Msg H B)) (s : LoadState V A S) (self : Addr) (d : Disk)
    (path : Nat) : LoadState V A S × Except PyErr Unit :=
  match readFile d path with
  | .error e => (s, .error e)
  | .ok data => modelFromBytes ops io msgpack s self data

/-- `can_from_disk`, model.py:679-689. -/
def canFromDisk [DecidableEq B] [DecidableEq Sh] (ops : SerOps V A S B Sh) (io : ArrayIO V H) (msgpack : Codec (Msg H B))
    (s : LoadState V A S) (self : Addr) (d : Disk) (path : Nat) (strict : Bool) : Except PyErr Bool :=
  match d.get? path with
  | none => .ok false
  | some .dir => .ok false
  | some (.file data) => canFromBytes ops io msgpack s self data strict

end Thinc
