import Mathlib.Data.List.Basic

/-!
Model of writing to a file: `cp_stream_fwrite` and `cp_stream_vfprintf` of `src/hob3lbase/stream.c`.

The C library and the operating system are the environment: for each call it decides how many bytes are accepted.
-/

namespace Hob3l.Stream

/-- how a sequence of calls ends: the bytes in the file, and whether `cp_panic` was called -/
inductive Res where
  | ok (file : List Nat)
  | panic (file : List Nat)
  deriving DecidableEq, Repr

/-- the C function `fwrite(buff, 1, size, f)`: `acc` bytes at most are accepted; returns the new contents of the file and
the number of bytes that were accepted -/
def fwrite (acc : Nat) (file buff : List Nat) : List Nat × Nat := (file ++ buff.take acc, min acc buff.length)

/-- `cp_stream_fwrite` stream.c:38-48 -/
def streamFwrite (acc : Nat) (file buff : List Nat) : Res :=
  let r := fwrite acc file buff
  if r.2 = 0 then .panic r.1 else .ok r.1

/-- the C function `vfprintf` for a text: if not all of it is accepted, the result is negative (C99 7.19.6.8) -/
def vfprintf (acc : Nat) (file text : List Nat) : List Nat × Int :=
  (file ++ text.take acc, if acc < text.length then -1 else text.length)

/-- `cp_stream_vfprintf` stream.c:25-33 -/
def streamVfprintf (acc : Nat) (file text : List Nat) : Res :=
  let r := vfprintf acc file text
  if r.2 < 0 then .panic r.1 else .ok r.1

/-- a call of `cp_write` or `cp_printf` (stream.h:53-74) with the text to be written -/
inductive Call where
  | write (buff : List Nat)
  | printf (text : List Nat)
  deriving DecidableEq, Repr

/-- the text of a call -/
def Call.text : Call → List Nat
  | .write b => b
  | .printf t => t

/-- one call -/
def step (acc : Nat) (file : List Nat) : Call → Res
  | .write b => streamFwrite acc file b
  | .printf t => streamVfprintf acc file t

/-- a sequence of calls; the environment accepts `acc i` bytes in call `i` -/
def run (acc : Nat → Nat) : List Call → Nat → List Nat → Res
  | [], _, file => .ok file
  | c :: cs, i, file =>
    match step (acc i) file c with
    | .panic f => .panic f
    | .ok f => run acc cs (i + 1) f

end Hob3l.Stream
