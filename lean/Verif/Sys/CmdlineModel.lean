import Verif.Common

/-!
# Model of the kernel command line parser

`kernel/src/cmdline.rs`.  The lexer is generated by the crate `logos` and is not modelled: the parser is a
function of the tokens with their text.
-/

namespace NRK.Sys.Cmd

/-- Text. -/
abbrev Str := List Char

/-- The tokens that name an option (`cmdline.rs` lines 24-57). -/
inductive Opt where
  | test | log | mode | transport | machineId | workers | initBinary | initArgs | appArgs
deriving DecidableEq, Repr

/-- `CmdToken` (`cmdline.rs` lines 19-72) with `lexer.slice()` where the parser uses it.  A literal
string is given without its quotes, which the parser strips. -/
inductive Token where
  | kernelBinary
  | key (o : Opt)
  | ident (s : Str)
  | sep
  | literal (s : Str)
  | error
deriving DecidableEq, Repr

/-- `Mode` (`cmdline.rs` lines 74-83). -/
inductive Mode where
  | native | controller | client
deriving DecidableEq, Repr

/-- `From<&str> for Mode` (`cmdline.rs` lines 85-94). -/
def Mode.ofStr (s : Str) : Mode :=
  if s = "native".toList then .native
  else if s = "controller".toList then .controller
  else if s = "client".toList then .client
  else .native

/-- `Transport` (`cmdline.rs` lines 96-103). -/
inductive Transport where
  | shmem | ethernet
deriving DecidableEq, Repr

/-- `From<&str> for Transport` (`cmdline.rs` lines 105-113). -/
def Transport.ofStr (s : Str) : Transport :=
  if s = "ethernet".toList then .ethernet else .shmem

/-- The digits of a number, `none` on another character (`core::num`, used by `parse`). -/
def digits : Nat → Str → Option Nat
  | n, [] => some n
  | n, c :: cs => if '0' ≤ c ∧ c ≤ '9' then digits (n * 10 + (c.toNat - '0'.toNat)) cs else none

/-- `str::parse` for an unsigned type with values below `bound`: a `+` may precede the digits, of which
there is at least one (the standard library, used at `cmdline.rs` lines 207, 211, 272, 276). -/
def parseUnsigned (bound : Nat) (s : Str) : Option Nat :=
  let t := match s with
    | '+' :: t => t
    | t => t
  if t = [] then none
  else match digits 0 t with
    | some n => if n < bound then some n else none
    | none => none

/-- `CommandLineArguments` (`cmdline.rs` lines 117-128). -/
structure Args where
  logFilter : Str
  initBinary : Str
  initArgs : Str
  appArgs : Str
  test : Option Str
  mode : Mode
  transport : Transport
  machineId : Nat
  workers : Nat
deriving DecidableEq, Repr

/-- `CommandLineArguments::default` (`cmdline.rs` lines 132-146). -/
def Args.default : Args where
  logFilter := "info".toList
  initBinary := "init".toList
  initArgs := []
  appArgs := []
  test := none
  mode := .native
  transport := .shmem
  machineId := 0
  workers := 1

/-- `usize` and `u8` have values below these bounds. -/
def usizeBound : Nat := 2 ^ 64
/-- See `usizeBound`. -/
def u8Bound : Nat := 256

/-- The assignments under `CmdToken::Ident` (`cmdline.rs` lines 185-226). -/
def Args.setIdent (a : Args) (o : Opt) (s : Str) : Args :=
  match o with
  | .log => { a with logFilter := s }
  | .mode => { a with mode := .ofStr s }
  | .transport => { a with transport := .ofStr s }
  | .initBinary => { a with initBinary := s }
  | .initArgs => { a with initArgs := s }
  | .machineId => { a with machineId := (parseUnsigned usizeBound s).getD 0 }
  | .workers => { a with workers := (parseUnsigned u8Bound s).getD 1 }
  | .appArgs => { a with appArgs := s }
  | .test => { a with test := some s }

/-- The assignments under `CmdToken::LiteralString` (`cmdline.rs` lines 246-284); `none` is the case that
is skipped. -/
def Args.setLiteral (a : Args) (o : Opt) (s : Str) : Option Args :=
  match o with
  | .log => some { a with logFilter := s }
  | .initBinary => some { a with initBinary := s }
  | .initArgs => some { a with initArgs := s }
  | .appArgs => some { a with appArgs := s }
  | .test => some { a with test := some s }
  | .machineId => some { a with machineId := (parseUnsigned usizeBound s).getD 0 }
  | .workers => some { a with workers := (parseUnsigned u8Bound s).getD 1 }
  | .mode | .transport => none

/-- One turn of the loop of `from_str` (`cmdline.rs` lines 167-294).  `prev` is the option whose value is
expected; `CmdToken::Error` in the code is `none`. -/
def step (st : Args × Option Opt) : Token → Outcome (Args × Option Opt)
  | .kernelBinary => .ok st
  | .key o => .ok (st.1, some o)
  | .ident s =>
    match st.2 with
    | some o => .ok (st.1.setIdent o s, none)
    | none => .err .invalidCmdLineOptions
  | .sep =>
    match st.2 with
    | some _ => .ok st
    | none => .err .malformedCmdLine
  | .literal s =>
    match st.2 with
    | some o =>
      match st.1.setLiteral o s with
      | some a => .ok (a, none)
      | none => .ok st
    | none => .ok st
  | .error => .err .malformedCmdLine

/-- The loop. -/
def steps (st : Args × Option Opt) : List Token → Outcome (Args × Option Opt)
  | [] => .ok st
  | t :: l =>
    match step st t with
    | .ok st => steps st l
    | .err e => .err e
    | .panic => .panic

/-- `CommandLineArguments::from_str` (`cmdline.rs` lines 149-315), with the features `shmem` and
`ethernet` of the build. -/
def fromTokens (shmem ethernet : Bool) (l : List Token) : Outcome Args :=
  match steps (.default, none) l with
  | .err e => .err e
  | .panic => .panic
  | .ok (a, _) =>
    if shmem = false ∧ a.mode ≠ .native ∧ a.transport = .shmem then .err .invalidCmdLineOptions
    else if ethernet = false ∧ a.mode ≠ .native ∧ a.transport = .ethernet then
      .err .invalidCmdLineOptions
    else .ok a

end NRK.Sys.Cmd
