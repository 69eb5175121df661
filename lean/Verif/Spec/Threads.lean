import Verif.Model.Threads

/-!
# What a thread should see

A thread with the library for itself: the models of the dictionary and of the streaming encoder, without any
shared memory.
-/

namespace Vcd.Spec
open Threads (Command)

/-- The objects of a thread: the dictionary in use and the encoder. -/
structure Own where
  engine : Option Engine := none
  encoder : Option Encoder := none

/-- One command: the replies and the objects afterwards. -/
def Own.command (s : Own) : Command → Except Fault (List ThreadReply × Own)
  | .dictionary contents =>
    match Engine.init contents with
    | .error f => .error f
    | .ok none => .ok ([.inited false], s)
    | .ok (some e) => .ok ([.inited true], { s with engine := some e })
  | .encoder flags matching => .ok ([], { s with encoder := s.engine.map (Encoder.new · flags matching) })
  | .call c =>
    match s.encoder with
    | none => .ok ([], s)
    | some e =>
      match e.call c with
      | .error f => .error f
      | .ok (r, e) => .ok ([.called r], { s with encoder := some e })

/-- A list of commands. -/
def Own.commands (s : Own) : List Command → Except Fault (List ThreadReply × Own)
  | [] => .ok ([], s)
  | c :: cs =>
    match s.command c with
    | .error f => .error f
    | .ok (rs, s) =>
      match s.commands cs with
      | .error f => .error f
      | .ok (rs', s) => .ok (rs ++ rs', s)

/-- The replies to the commands of a thread that starts with a dictionary, or without one, when no other
thread exists. -/
def alone (engine : Option Engine) (cs : List Command) : Except Fault (List ThreadReply) :=
  (Own.commands { engine } cs).map Prod.fst

/-- No dictionary and no chunk has 2^30 bytes or more. -/
def Modest (cs : List Command) : Prop :=
  (∀ contents, .dictionary contents ∈ cs → contents.length < 2 ^ 30) ∧
  ∀ data, .call (.chunk data) ∈ cs → data.length < 2 ^ 30

/-- The delta a thread has got: the bytes appended to its output string by all calls of its encoder. -/
def outputs (rs : List ThreadReply) : Bytes :=
  rs.flatMap fun
    | .inited _ => []
    | .called r => r.out

end Vcd.Spec
