import Verif.Basic

/-!
# Redirection of the messages (output.py 23-48, misc.cc 37-38, 398-475, 2172-2232, PyFileStreambuf.h, OutputStreams.cc)

* Messages of the C++ code are written to `*NS_PDFFIT2::pout`, those of the Python code to `output.stdout`.
* A text is written piece by piece (one call of `write` per piece); a piece is a list of characters.
* The standard output of Python (`sys.stdout` at import) and `std::cout` are the same destination `std`. Buffering of them is not modelled,
  a `PyFileStreambuf` has no buffer.
* `overflow` writes the first byte of an `int`, which is the character on little-endian machines (PyFileStreambuf.h 68-74); this is assumed.
* `refine_step` releases the interpreter lock. Writing to a Python object without the lock, writing to the `ostringstream` of another
  thread, and the use of a deleted buffer are undefined behaviour.
-/

namespace Pdffit.Outp

abbrev Text := List Char

/-- A Python object. -/
abbrev File := Nat

/-- Where a text arrives. -/
inductive Tgt where
  | std
  | file (f : File)
  deriving DecidableEq, Repr

/-- The buffer of the `ostream` that `pout` points to: `*py_stdout_streambuf` or `msgout` of the `RefineStepHelper` of a thread. -/
inductive Buf where
  | py
  | msg (t : Nat)
  deriving DecidableEq, Repr

/-- Objects: has it the attributes `write` and `flush`; does its method `write` take the text without raising. -/
structure Env where
  filelike : File → Bool
  accepts : File → Text → Bool

/-- `sb`: the file of `py_stdout_streambuf` (`none`: NULL). `pout`: `none` is `&std::cout`. `pyout`: the variable `stdout` of output.py.
`refs`: references held by the engine. `log`: the received text. `helper`: `msgout` of the running `refine_step` of a thread. `pending`: a call
of `write` has raised and the Python error has not been cleared. -/
structure St where
  sb : Option File
  pout : Option Buf
  pyout : Tgt
  refs : File → Int
  log : Tgt → Text
  helper : Nat → Option Text
  pending : Bool

/-- After the import. -/
def init : St := ⟨none, none, .std, fun _ => 0, fun _ => [], fun _ => none, false⟩

/-- What happens in some thread. `start`, `out`, `stop` are the parts of `refine_step`. -/
inductive Ev where
  | redirect (f : File)
  | restore
  | print (s : Text)
  | engine (s : Text)
  | start (t : Nat)
  | out (t : Nat) (s : Text)
  | stop (t : Nat)

def upd {α β : Type} [DecidableEq α] (f : α → β) (a : α) (b : β) : α → β := fun x => if x = a then b else f x

/-- A text arrives at a destination. -/
def St.arrive (s : St) (t : Tgt) (x : Text) : St := { s with log := upd s.log t (s.log t ++ x) }

/-- A call of the method `write` (PyFileStreambuf.h 76-82). -/
def St.write (s : St) (E : Env) (f : File) (x : Text) : St :=
  if E.accepts f x then s.arrive (.file f) x else { s with pending := true }

/-- `Py_INCREF`, `Py_DECREF` -/
def addRef (r : File → Int) (f : File) (n : Int) : File → Int := upd r f (r f + n)

/-- One step. -/
def step (E : Env) (s : St) : Ev → Res St
  -- output.py 29-39, misc.cc 2176-2202, PyFileStreambuf.h 46-64
  | .redirect f =>
    if E.filelike f then
      let (g, r) := match s.sb with
        | none => (f, addRef s.refs f 1)
        | some g => (g, s.refs)
      .ok { s with
        sb := some f
        refs := addRef (addRef r f 1) g (-1)
        pout := match s.pout with | none => some .py | some b => some b
        pyout := .file f }
    else .err .other
  -- output.py 42-48, misc.cc 2210-2232
  | .restore => .ok { s with
      pout := none
      sb := none
      refs := match s.sb with | none => s.refs | some f => addRef s.refs f (-1) }
  -- print(..., file=output.stdout)
  | .print x => match s.pyout with
    | .std => .ok (s.arrive .std x)
    | .file f => .ok (s.write E f x)
  -- *pout << x in a call that holds the lock
  | .engine x => match s.pout with
    | none => .ok (s.arrive .std x)
    | some .py => match s.sb with
      | some f => .ok (s.write E f x)
      | none => .ub
    | some (.msg _) => .ub
  -- constructor of RefineStepHelper, misc.cc 410-417
  | .start t => .ok { s with
      pout := match s.sb with | none => s.pout | some _ => some (.msg t)
      helper := upd s.helper t (some []) }
  -- *pout << x in refine_step
  | .out t x => match s.pout with
    | none => .ok (s.arrive .std x)
    | some .py => .ub
    | some (.msg u) => if u = t then
        match s.helper t with
        | some y => .ok { s with helper := upd s.helper t (some (y ++ x)) }
        | none => .ub
      else .ub
  -- clean, misc.cc 420-428; the destructor of `msgout` follows
  | .stop t => match s.sb with
    | none => .ok { s with helper := upd s.helper t none }
    | some f =>
      let s' : St := { s with pout := some .py, helper := upd s.helper t none }
      .ok (match s.helper t with
        | some y => s'.write E f y
        | none => s')

/-- A sequence of steps; a call that raises leaves the state as it is. -/
def run (E : Env) (s : St) : List Ev → Res St
  | [] => .ok s
  | e :: l => match step E s e with
    | .ok s' => run E s' l
    | .err _ => run E s l
    | .ub => .ub

/-- What a program with one thread does: the last one is `refine_step` with the messages of the engine. -/
inductive Act where
  | redirect (f : File)
  | restore
  | print (s : Text)
  | engine (s : Text)
  | refine (ms : List Text)

def Act.events : Act → List Ev
  | .redirect f => [.redirect f]
  | .restore => [.restore]
  | .print s => [.print s]
  | .engine s => [.engine s]
  | .refine ms => .start 0 :: (ms.map (Ev.out 0) ++ [.stop 0])

end Pdffit.Outp
