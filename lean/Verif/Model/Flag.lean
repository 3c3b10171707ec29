import Verif.Model.Text

/-!
# The package flag of the Go library, as every command of the repository calls it

`flag.Parse()` reads `os.Args[1:]` for the flags a command declares (for example cmd/voxcut/voxcut.go:29-40,
51 and cmd/voxcut-dice/voxcut-dice.go:16-22, 30).  Any error ends the command (`flag.ExitOnError`).
-/

namespace StlDice
namespace Flag

/-- The types of flags in use: `flag.Bool`, `flag.Int`, `flag.Float64`, `flag.String`. -/
inductive Kind where
  | bool
  | int
  | float
  | str
deriving DecidableEq

/-- The value of a digit or letter, strconv (library). -/
def digitVal (c : UInt8) : Option Nat :=
  if 48 ≤ c ∧ c ≤ 57 then some (c.toNat - 48)
  else if 97 ≤ c ∧ c ≤ 122 then some (c.toNat - 97 + 10)
  else if 65 ≤ c ∧ c ≤ 90 then some (c.toNat - 65 + 10)
  else none

/-- The loop of `strconv.ParseUint` for base 0: the value of a string of digits in a base; underscores are
    passed over (`underscoreOK` looks at them afterwards). -/
def digitsIn (base : Nat) : Nat → Bytes → Option Nat
  | n, [] => some n
  | n, c :: cs =>
    if c = 95 then digitsIn base n cs
    else
      match digitVal c with
      | none => none
      | some v => if v < base then digitsIn base (n * base + v) cs else none

/-- What `strconv.underscoreOK` saw last: nothing yet, a digit (or the prefix of a base), an underscore,
    something else. -/
inductive Last where
  | start
  | digit
  | under
  | other
deriving DecidableEq

/-- One byte in the loop of `strconv.underscoreOK`; `none` once it has returned false. -/
def usStep (hex : Bool) : Option Last → UInt8 → Option Last
  | none, _ => none
  | some i, c =>
    if (48 ≤ c ∧ c ≤ 57) ∨ (hex = true ∧ ((97 ≤ c ∧ c ≤ 102) ∨ (65 ≤ c ∧ c ≤ 70))) then some .digit
    else if c = 95 then (if i = .digit then some .under else none)
    else if i = .under then none
    else some .other

/-- The loop and the end of `strconv.underscoreOK`. -/
def usLoop (hex : Bool) (i : Last) (s : Bytes) : Bool :=
  match s.foldl (usStep hex) (some i) with
  | none => false
  | some .under => false
  | some _ => true

/-- `strconv.underscoreOK` after the optional sign. -/
def usBody : Bytes → Bool
  | 48 :: b :: r =>
    if b = 98 ∨ b = 66 ∨ b = 111 ∨ b = 79 then usLoop false .digit r
    else if b = 120 ∨ b = 88 then usLoop true .digit r
    else usLoop false .start (48 :: b :: r)
  | s => usLoop false .start s

/-- `strconv.underscoreOK`: underscores only between digits, or between the prefix of the base and a digit. -/
def underscoreOK : Bytes → Bool
  | [] => usBody []
  | c :: s => usBody (if c = 45 ∨ c = 43 then s else c :: s)

/-- The choice of the base in `strconv.ParseUint(s, 0, 64)` (`0b`, `0o`, `0x` and a leading `0` select it) and
    the loop over the digits. -/
def digits0 : Bytes → Option Nat
  | [] => none
  | c :: s =>
    if c = 48 then
      match s with
      | b :: d :: r =>
        if b = 98 ∨ b = 66 then digitsIn 2 0 (d :: r)
        else if b = 111 ∨ b = 79 then digitsIn 8 0 (d :: r)
        else if b = 120 ∨ b = 88 then digitsIn 16 0 (d :: r)
        else digitsIn 8 0 s
      | _ => digitsIn 8 0 s
    else digitsIn 10 0 (c :: s)

/-- `strconv.ParseUint(s, 0, 64)` without the range check, which is made in `parseInt0`: a value of `2^64` or more
    is above both limits there. -/
def parseUint0 (s : Bytes) : Option Nat :=
  match digits0 s with
  | none => none
  | some n => if (95 : UInt8) ∈ s ∧ underscoreOK s = false then none else some n

/-- `strconv.ParseInt(s, 0, 64)`: the value of a flag declared with `flag.Int`. -/
def parseInt0 : Bytes → Option Int
  | [] => none
  | c :: s =>
    if c = 45 then
      match parseUint0 s with
      | none => none
      | some n => if n ≤ maxInt + 1 then some (-(n : Int)) else none
    else
      match parseUint0 (if c = 43 then s else c :: s) with
      | none => none
      | some n => if n ≤ maxInt then some (n : Int) else none

/-- `strconv.ParseBool`: the value of a flag declared with `flag.Bool`. -/
def parseBool (s : Bytes) : Option Bool :=
  if s ∈ ["1", "t", "T", "TRUE", "true", "True"].map ascii then some true
  else if s ∈ ["0", "f", "F", "FALSE", "false", "False"].map ascii then some false
  else none

/-- Whether `Set` accepts the value; `float` tells which texts `strconv.ParseFloat` accepts. -/
def valid (float : Bytes → Bool) : Kind → Bytes → Bool
  | .bool, v => (parseBool v).isSome
  | .int, v => (parseInt0 v).isSome
  | .float, v => float v
  | .str, _ => true

/-- What `flag.FlagSet.parseOne` sees in one argument. -/
inductive Word where
  /-- not a flag: the arguments begin here -/
  | arg
  /-- `--`: the arguments begin after it -/
  | stop
  /-- bad flag syntax -/
  | bad
  | flag (name : Bytes) (value : Option Bytes)

/-- `name=value`. -/
def splitEq : Bytes → Bytes × Option Bytes
  | [] => ([], none)
  | c :: s => if c = 61 then ([], some s) else (c :: (splitEq s).1, (splitEq s).2)

/-- What follows the minus signs. -/
def nameWord : Bytes → Word
  | [] => .bad
  | c :: s => if c = 45 ∨ c = 61 then .bad else .flag (c :: (splitEq s).1) (splitEq s).2

/-- The start of `flag.FlagSet.parseOne`: one or two minus signs, a name, perhaps `=value`. -/
def word : Bytes → Word
  | [] => .arg
  | c :: s =>
    if c ≠ 45 then .arg
    else match s with
      | [] => .arg
      | c2 :: r =>
        if c2 = 45 then (match r with | [] => .stop | c3 :: r' => nameWord (c3 :: r'))
        else nameWord (c2 :: r)

/-- The result of `flag.Parse`: the assignments in order and the remaining arguments, or the end of the
    command with the usage text; only after `-h` or `-help` (`flag.ErrHelp`) it counts as success. -/
inductive Outcome where
  | ok (sets : List (Bytes × Bytes)) (rest : List Bytes)
  | exit (success : Bool)

/-- One more assignment before. -/
def Outcome.after (a : Bytes × Bytes) : Outcome → Outcome
  | .ok sets rest => .ok (a :: sets) rest
  | .exit b => .exit b

/-- `flag.FlagSet.Parse` with the declared flags `kind`. -/
def parse (kind : Bytes → Option Kind) (float : Bytes → Bool) : List Bytes → Outcome
  | [] => .ok [] []
  | s :: args =>
    match word s with
    | .arg => .ok [] (s :: args)
    | .stop => .ok [] args
    | .bad => .exit false
    | .flag name value =>
      match kind name with
      | none => .exit (name = ascii "help" ∨ name = ascii "h")
      | some .bool =>
        if valid float .bool (value.getD (ascii "true")) then
          (parse kind float args).after (name, value.getD (ascii "true"))
        else .exit false
      | some k =>
        match value, args with
        | some v, args => if valid float k v then (parse kind float args).after (name, v) else .exit false
        | none, [] => .exit false
        | none, v :: args' => if valid float k v then (parse kind float args').after (name, v) else .exit false

/-- The text last assigned to a flag. -/
def get (sets : List (Bytes × Bytes)) (name : Bytes) : Option Bytes :=
  sets.foldl (fun r a => if a.1 = name then some a.2 else r) none

/-- The value of a string flag with default "". -/
def getStr (sets : List (Bytes × Bytes)) (name : Bytes) : Bytes := (get sets name).getD []

/-- The value of an int flag. -/
def getInt (sets : List (Bytes × Bytes)) (name : Bytes) (dflt : Int) : Int :=
  ((get sets name).bind parseInt0).getD dflt

/-- The value of a bool flag with default false. -/
def getBool (sets : List (Bytes × Bytes)) (name : Bytes) : Bool :=
  ((get sets name).bind parseBool).getD false

/-- A table of declared flags. -/
def table (l : List (String × Kind)) (name : Bytes) : Option Kind :=
  (l.find? fun p => ascii p.1 = name).map Prod.snd

end Flag
end StlDice
