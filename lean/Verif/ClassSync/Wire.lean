/-!
Class definitions on the wire: crates/p2p/src/sync/client/conv.rs. Text is a list of bytes; base64 and
gzip are taken to give back what they were given.
-/

namespace Verif.ClassSync.Wire

/-- An entry point: selector, and byte code offset or function index. -/
abbrev Entry := Nat × Nat

/-- crates/common/src/class_definition.rs 73-82 `Cairo`: texts of ABI and program, entry points. -/
structure Cairo where
  abi : List UInt8
  program : List UInt8
  external : List Entry
  l1Handler : List Entry
  constructors : List Entry
deriving DecidableEq

/-- class_definition.rs 44-58 `Sierra`. -/
structure Sierra where
  abi : List UInt8
  program : List Nat
  version : List UInt8
  external : List Entry
  l1Handler : List Entry
  constructors : List Entry
deriving DecidableEq

/-- crates/p2p_proto/src/class.rs 18-26 `Cairo0Class`; `program` is the text before compression. -/
structure Cairo0Class where
  abi : List UInt8
  externals : List Entry
  l1Handlers : List Entry
  constructors : List Entry
  program : List UInt8

/-- crates/p2p_proto/src/class.rs 41-80 `Cairo1Class`. -/
structure Cairo1Class where
  abi : List UInt8
  externals : List Entry
  l1Handlers : List Entry
  constructors : List Entry
  program : List Nat
  version : List UInt8

/-- conv.rs 1061-1100: an offset, which is a felt, is cut to its last eight bytes. -/
def cairoToDto (c : Cairo) : Cairo0Class where
  abi := c.abi
  externals := c.external.map fun e => (e.1, e.2 % 2 ^ 64)
  l1Handlers := c.l1Handler.map fun e => (e.1, e.2 % 2 ^ 64)
  constructors := c.constructors.map fun e => (e.1, e.2 % 2 ^ 64)
  program := c.program

/-- conv.rs 1024-1059. Function indices have 64 bits on both sides. -/
def sierraToDto (c : Sierra) : Cairo1Class where
  abi := c.abi
  externals := c.external
  l1Handlers := c.l1Handler
  constructors := c.constructors
  program := c.program
  version := c.version

/-- What reading a class gives. -/
inductive Read (α : Type) where
  | ok (a : α)
  | error
  | panic
deriving DecidableEq

/-- crates/common/src/class_definition.rs 14. -/
def maxSize : Nat := 4 * 1024 * 1024

/-- conv.rs 890-962. `json` says whether a text is a JSON value without white space around it.
The ABI is unwrapped, the program is cut after `maxSize` bytes. The result is the definition that the
JSON text made of it stands for. -/
def cairoFromDto (json : List UInt8 → Bool) (d : Cairo0Class) : Read Cairo :=
  if json d.abi then
    if json (d.program.take maxSize) then
      .ok { abi := d.abi, program := d.program.take maxSize, external := d.externals,
            l1Handler := d.l1Handlers, constructors := d.constructors }
    else .error
  else .panic

/-- conv.rs 964-1022. -/
def sierraFromDto (d : Cairo1Class) : Read Sierra :=
  .ok { abi := d.abi, program := d.program, version := d.version, external := d.externals,
        l1Handler := d.l1Handlers, constructors := d.constructors }

/-- crates/p2p/src/sync/client/peer_agnostic.rs 1257-1303 `handle_response` for the classes of a block, of
which `count` are expected, and what becomes of the task: the classes, the next peer, or the end of the
task, which ends its stream without an error. -/
inductive Block (α : Type) where
  | full (l : List α)
  | nextPeer
  | streamEnds
deriving DecidableEq

/-- The classes of one block from one peer, peer_agnostic.rs 1198-1212. -/
def readBlock {α β : Type} (read : α → Read β) : Nat → List α → Block β
  | 0, _ => .full []
  | _ + 1, [] => .nextPeer
  | n + 1, x :: xs =>
    match read x with
    | .panic => .streamEnds
    | .error => .nextPeer
    | .ok y =>
      match readBlock read n xs with
      | .full l => .full (y :: l)
      | .nextPeer => .nextPeer
      | .streamEnds => .streamEnds

end Verif.ClassSync.Wire
