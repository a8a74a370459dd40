import Verif.Core.Outcome

/-!
# Model of `ecl_streams`: log streams

`std::map<int,std::string>` is modelled by an association list, `timestamp.stamp()` followed by
its formatting by a text supplied with the call.  The device is the text it has been given; the
log file is assumed open.  The two flags are `none` while uninitialised.
-/
set_option autoImplicit false

namespace Ecl

/-- A `LogStream` (`log_stream.hpp:110-224`). -/
structure LogStream where
  writeHeader : Option Bool
  writeStamp : Option Bool
  modes : List (Int × List Char)
  text : List Char
  deriving DecidableEq, Repr

namespace LogStream

/-- The default constructor (`log_stream.hpp:118`): the flags are not initialised. -/
def default : LogStream := ⟨none, none, [], []⟩

/-- The constructor with a file name (`log_stream.hpp:130-141`). -/
def new : LogStream := ⟨some true, some true, [], []⟩

/-- `std::map::find`. (Used at `log_stream.cpp:50, 62`.) -/
def find (mode : Int) : List (Int × List Char) → Option (List Char)
  | [] => none
  | (k, h) :: r => if k = mode then some h else find mode r

/-- `isModeEnabled` (`log_stream.cpp:48-55`). -/
def isModeEnabled (s : LogStream) (mode : Int) : Bool := (find mode s.modes).isSome

/-- `isEnabled` (`log_stream.cpp:40-46`). -/
def isEnabled (s : LogStream) : Bool := s.modes.length > 0

/-- `enableMode` (`log_stream.cpp:37`): `map::insert` does nothing when the key is there. -/
def enableMode (s : LogStream) (mode : Int) (header : List Char) : LogStream :=
  if s.isModeEnabled mode then s else { s with modes := s.modes ++ [(mode, header)] }

/-- `disableMode` (`log_stream.cpp:38`). -/
def disableMode (s : LogStream) (mode : Int) : LogStream :=
  { s with modes := s.modes.filter fun p => p.1 ≠ mode }

/-- `*this << text`. (`log_stream.cpp:57-68`.) -/
def put (s : LogStream) (t : List Char) : LogStream := { s with text := s.text ++ t }

/-- `log(mode)` (`log_stream.cpp:57-68`); `modes[mode]` inserts an empty header for a mode that is
not there.  Reading an uninitialised flag is undefined. -/
def log (s : LogStream) (mode : Int) (stamp : List Char) : Outcome LogStream :=
  match s.writeStamp, s.writeHeader with
  | some ws, some wh =>
    let s := if ws then (s.put stamp).put " ".toList else s
    let s := if wh then
        let s := s.enableMode mode []
        ((s.put "[".toList).put ((find mode s.modes).getD [])).put "] ".toList
      else s
    .ok (if ws || wh then s.put ": ".toList else s)
  | _, _ => .ub

/-- `LOG(stream,mode) << message` (`log_stream.hpp:43-45`). -/
def LOG (s : LogStream) (mode : Int) (stamp msg : List Char) : Outcome LogStream :=
  if !s.isModeEnabled mode then .ok s
  else do
    let s ← s.log mode stamp
    .ok (s.put msg)

/-- Calls on a log stream; `log` is the macro, `rawLog` the member function.
(`log_stream.hpp:43-45`, `log_stream.cpp:32-68`.) -/
inductive Op where
  | enable (mode : Int) (header : List Char)
  | disable (mode : Int)
  | header (on : Bool)
  | stamp (on : Bool)
  | isOn (mode : Int)
  | anyOn
  | log (mode : Int) (stamp msg : List Char)
  | rawLog (mode : Int) (stamp msg : List Char)
  deriving DecidableEq, Repr

/-- What a call returns. (`log_stream.cpp:32-68`.) -/
inductive Ret where
  | unit
  | bool (b : Bool)
  deriving DecidableEq, Repr

/-- The outcome of `log` (`log_stream.cpp:57-68`) as result of a call. -/
def ofOutcome (s : LogStream) : Outcome LogStream → Res LogStream Ret
  | .ok s' => .ok s' .unit
  | .throw e => .throw s e
  | .ub => .ub

/-- One call (`log_stream.cpp:32-68`, `log_stream.hpp:43-45`). -/
def step (s : LogStream) : Op → Res LogStream Ret
  | .enable m h => .ok (s.enableMode m h) .unit
  | .disable m => .ok (s.disableMode m) .unit
  | .header b => .ok { s with writeHeader := some b } .unit
  | .stamp b => .ok { s with writeStamp := some b } .unit
  | .isOn m => .ok s (.bool (s.isModeEnabled m))
  | .anyOn => .ok s (.bool s.isEnabled)
  | .log m st msg => ofOutcome s (s.LOG m st msg)
  | .rawLog m st msg => ofOutcome s (do let s ← s.log m st; .ok (s.put msg))

end LogStream
end Ecl
