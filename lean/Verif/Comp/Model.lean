/-!
# Compiling a Sierra class in a child process

Models crates/compiler/src/lib.rs and `compile_main` in
crates/pathfinder/src/bin/pathfinder/main.rs:581-601, with the options in
crates/pathfinder/src/config.rs:609-631.

Simplifications: reading JSON and the four compilers are functions that may fail or panic;
the time and memory that they take is not modelled: a child that runs out of either, or
whose stack overflows, is killed, which can happen at any time.  Pipes have a capacity.
-/

namespace Verif.Comp

abbrev Bytes := List Nat

/-- compiler/src/lib.rs:61-67 `BlockifierLibfuncs`. -/
inductive Libfuncs where
  | audited
  | all
  | experimental
deriving DecidableEq

/-- The option and the environment variable of a setting (config.rs:611-630): the option
counts first, then the variable, then the default. -/
def setting {α : Type} (option env : Option α) (default : α) : α :=
  match option with
  | some a => a
  | none =>
    match env with
    | some a => a
    | none => default

/-- What a process is started with: the two options and the two variables. -/
structure Start where
  libfuncsOption : Option Libfuncs
  sizeOption : Option Nat
  libfuncsEnv : Option Libfuncs
  sizeEnv : Option Nat
deriving DecidableEq

/-- config.rs:609-631 `CompileConfig`. -/
def Start.libfuncs (s : Start) : Libfuncs := setting s.libfuncsOption s.libfuncsEnv .audited
def Start.size (s : Start) : Nat := setting s.sizeOption s.sizeEnv 81920

/-- compiler/src/lib.rs:110-122: how the child is started by a node that was started with
`s` (config.rs:1412 takes only the list from the node's options).  The environment is
inherited. -/
def childStart (s : Start) : Start :=
  { libfuncsOption := some s.libfuncs, sizeOption := none, libfuncsEnv := s.libfuncsEnv, sizeEnv := s.sizeEnv }

/-- What a compiler comes to. -/
inductive Res where
  | ok (casm : Bytes)
  | err (message : Bytes)
  | panic (message : Bytes)
deriving DecidableEq

/-- `class_definition::Sierra`: the program, as field elements, and the rest. -/
structure Sierra where
  program : List Nat
  rest : Bytes
deriving DecidableEq

/-- The compilers (lib.rs:394-596) and reading a class from JSON. -/
structure Tools where
  read : Bytes → Option Sierra
  alpha6 : Sierra → Res
  rc0 : Sierra → Res
  v111 : Sierra → Res
  v2 : Libfuncs → Nat → Sierra → Res
  /-- the texts of errors that are made here -/
  text : String → Bytes

/-- crypto/src/algebra/field/felt.rs:272-287: a field element that fits 64 bits. -/
def toU64 (f : Nat) : Option Nat := if f < 2 ^ 64 then some f else none

/-- lib.rs:372-385 `parse_sierra_version`. -/
def version : List Nat → Option (Nat × Nat × Nat)
  | a :: rest =>
    if a = 0x302e312e30 then some (0, 1, 0)
    else
      match rest with
      | b :: c :: _ =>
        match toU64 a, toU64 b, toU64 c with
        | some a, some b, some c => some (a, b, c)
        | _, _, _ => none
      | _ => none
  | [] => none

/-- lib.rs:332-351 `compile_sierra_to_casm_deser_impl`: which compiler; a panic is caught. -/
def compileClass (t : Tools) (l : Libfuncs) (max : Nat) (s : Sierra) : Res :=
  match version s.program with
  | none => .err (t.text "Parsing Sierra version")
  | some v =>
    let r :=
      if v = (0, 1, 0) then t.alpha6 s
      else if v = (1, 0, 0) then t.rc0 s
      else if v = (1, 1, 0) then t.v111 s
      else t.v2 l max s
    match r with
    | .panic m => .err m
    | r => r

/-- lib.rs:311-325 `compile_sierra_to_casm_impl`. -/
def compileImpl (t : Tools) (l : Libfuncs) (max : Nat) (input : Bytes) : Res :=
  match t.read input with
  | none => .err (t.text "Parsing Sierra class")
  | some s => compileClass t l max s

/-- main.rs:581-601 `compile_main`: what the child writes to stdout and stderr and its exit
code, for its whole input; an error that `main` returns goes to stderr, with code 1. -/
def childMain (t : Tools) (s : Start) (input : Bytes) : Bytes × Bytes × Nat :=
  match compileImpl t s.libfuncs s.size input with
  | .ok casm => (casm, [], 0)
  | .err m => ([], m, 1)
  | .panic m => ([], m, 101)

/-- How the child ended. -/
inductive Status where
  | code (n : Nat)
  | signal
deriving DecidableEq

inductive Child where
  /-- `read_to_end` on stdin -/
  | reading (got : Bytes)
  /-- the rest of what goes to stdout and stderr, and the exit code -/
  | writing (out err : Bytes) (code : Nat)
  | gone (s : Status)
deriving DecidableEq

/-- The result of the call. -/
inductive Result where
  | ok (casm : Bytes)
  | err
deriving DecidableEq

inductive Parent where
  /-- lib.rs:126-132: `write_all` with what is left of the class -/
  | writing (rest : Bytes)
  /-- lib.rs:134-136: `wait_with_output` -/
  | reading (out err : Bytes)
  | done (r : Result)
deriving DecidableEq

/-- Both processes and the three pipes. -/
structure Sys where
  parent : Parent
  child : Child
  stdin : Bytes
  stdinOpen : Bool
  stdout : Bytes
  stderr : Bytes
  /-- the child has been waited for -/
  reaped : Bool
deriving DecidableEq

inductive Act where
  /-- the parent writes so many bytes, if there is room -/
  | put (n : Nat)
  /-- the parent has written everything and drops its end -/
  | close
  /-- the parent writes, but there is no reader any more: an error -/
  | broken
  /-- the child reads so many bytes -/
  | get (n : Nat)
  /-- the child finds the end of its input and compiles -/
  | compile
  | putOut (n : Nat)
  | putErr (n : Nat)
  | exit
  | takeOut (n : Nat)
  | takeErr (n : Nat)
  /-- the parent finds both pipes at their end and waits for the child -/
  | wait
  /-- the child is killed: by a limit, a crash or from outside -/
  | kill
deriving DecidableEq

/-- The child has ended. -/
def Child.isGone : Child → Bool
  | .gone _ => true
  | _ => false

/-- lib.rs:105-147 `compile_sierra_to_casm` after the child is there, and the child.
`cap` is the capacity of a pipe, `cs` what the child was started with. -/
def step (t : Tools) (cs : Start) (cap : Nat) (s : Sys) : Act → Option Sys
  | .put n =>
    match s.parent with
    | .writing rest =>
      if 0 < n ∧ n ≤ rest.length ∧ s.stdin.length + n ≤ cap ∧ s.child.isGone = false then
        some { s with parent := .writing (rest.drop n), stdin := s.stdin ++ rest.take n }
      else none
    | _ => none
  | .close =>
    match s.parent with
    | .writing [] => some { s with parent := .reading [] [], stdinOpen := false }
    | _ => none
  | .broken =>
    match s.parent with
    | .writing (_ :: _) => if s.child.isGone then some { s with parent := .done .err, stdinOpen := false } else none
    | _ => none
  | .get n =>
    match s.child with
    | .reading got =>
      if 0 < n ∧ n ≤ s.stdin.length then
        some { s with child := .reading (got ++ s.stdin.take n), stdin := s.stdin.drop n }
      else none
    | _ => none
  | .compile =>
    match s.child with
    | .reading got =>
      if s.stdin = [] ∧ s.stdinOpen = false then
        some { s with child := .writing (childMain t cs got).1 (childMain t cs got).2.1 (childMain t cs got).2.2 }
      else none
    | _ => none
  | .putOut n =>
    match s.child with
    | .writing out err code =>
      if 0 < n ∧ n ≤ out.length ∧ s.stdout.length + n ≤ cap then
        some { s with child := .writing (out.drop n) err code, stdout := s.stdout ++ out.take n }
      else none
    | _ => none
  | .putErr n =>
    match s.child with
    | .writing out err code =>
      if 0 < n ∧ n ≤ err.length ∧ s.stderr.length + n ≤ cap then
        some { s with child := .writing out (err.drop n) code, stderr := s.stderr ++ err.take n }
      else none
    | _ => none
  | .exit =>
    match s.child with
    | .writing [] [] code => some { s with child := .gone (.code code) }
    | _ => none
  | .takeOut n =>
    match s.parent with
    | .reading out err =>
      if 0 < n ∧ n ≤ s.stdout.length then
        some { s with parent := .reading (out ++ s.stdout.take n) err, stdout := s.stdout.drop n }
      else none
    | _ => none
  | .takeErr n =>
    match s.parent with
    | .reading out err =>
      if 0 < n ∧ n ≤ s.stderr.length then
        some { s with parent := .reading out (err ++ s.stderr.take n), stderr := s.stderr.drop n }
      else none
    | _ => none
  | .wait =>
    match s.parent, s.child with
    | .reading out _, .gone status =>
      if s.stdout = [] ∧ s.stderr = [] then
        some { s with parent := .done (if status = .code 0 then .ok out else .err), reaped := true }
      else none
    | _, _ => none
  | .kill => if s.child.isGone then none else some { s with child := .gone .signal }

/-- After `spawn` (lib.rs:119-122). -/
def start (sierra : Bytes) : Sys :=
  { parent := .writing sierra, child := .reading [], stdin := [], stdinOpen := true, stdout := [], stderr := [], reaped := false }

def run (t : Tools) (cs : Start) (cap : Nat) (s : Sys) : List Act → Option Sys
  | [] => some s
  | a :: as =>
    match step t cs cap s a with
    | some s => run t cs cap s as
    | none => none

end Verif.Comp
