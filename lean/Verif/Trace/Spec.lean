import Verif.Trace.Model

/-!
The traceback a program has without any decorator, and the calls that occur in a run.
-/

namespace Polog
namespace TraceSpec

/-- How the code ends when the decorators do nothing except for suppressing what they were told to suppress. -/
def natural (fr : TbFrame) : TbCode → Option (Nat × List TbFrame)
  | .done => none
  | .raise e => some (e, [fr])
  | .call deco n body rest =>
    match natural (.user n) body with
    | none => natural fr rest
    | some (e, tb) => if deco.any (fun d => d.suppresses e) then natural fr rest else some (e, fr :: tb)
  | .native _ _ none rest => natural fr rest
  | .native deco _ (some e) rest => if deco.any (fun d => d.suppresses e) then natural fr rest else some (e, [fr])
  | .handler body _ _ ends rest =>
    match natural fr body with
    | none => natural fr rest
    | some (e, tb) =>
      match ends with
      | .swallow => natural fr rest
      | .reraise => some (e, tb)
      | .raiseSame => some (e, fr :: tb)
      | .raiseOther e2 => some (e2, [fr])

/-- The code contains a call with number `n` of a decorated function written in Python, with this body. -/
inductive DecoratedCall (n : Nat) (body : TbCode) : TbCode → Prop
  | here (d rest) : DecoratedCall n body (.call (some d) n body rest)
  | inBody {d m b rest} : DecoratedCall n body b → DecoratedCall n body (.call d m b rest)
  | after {d m b rest} : DecoratedCall n body rest → DecoratedCall n body (.call d m b rest)
  | afterNative {d m r rest} : DecoratedCall n body rest → DecoratedCall n body (.native d m r rest)
  | inTry {b l o e rest} : DecoratedCall n body b → DecoratedCall n body (.handler b l o e rest)
  | afterTry {b l o e rest} : DecoratedCall n body rest → DecoratedCall n body (.handler b l o e rest)

/-- The code contains a call with number `n` of a decorated function written in C, which raises `e`. -/
inductive DecoratedNative (n e : Nat) : TbCode → Prop
  | here (d rest) : DecoratedNative n e (.native (some d) n (some e) rest)
  | inBody {d m b rest} : DecoratedNative n e b → DecoratedNative n e (.call d m b rest)
  | after {d m b rest} : DecoratedNative n e rest → DecoratedNative n e (.call d m b rest)
  | afterNative {d m r rest} : DecoratedNative n e rest → DecoratedNative n e (.native d m r rest)
  | inTry {b l o h rest} : DecoratedNative n e b → DecoratedNative n e (.handler b l o h rest)
  | afterTry {b l o h rest} : DecoratedNative n e rest → DecoratedNative n e (.handler b l o h rest)

/-- The code, running in a certain frame, contains `try: body; except …: log(…, exception=x)`, which runs in the frame `fr`;
`other` tells what `x` is. -/
inductive LogsByHand (fr : TbFrame) (body : TbCode) (other : Option Nat) : TbFrame → TbCode → Prop
  | here (h rest) : LogsByHand fr body other fr (.handler body true other h rest)
  | inBody {g d m b rest} : LogsByHand fr body other (.user m) b → LogsByHand fr body other g (.call d m b rest)
  | after {g d m b rest} : LogsByHand fr body other g rest → LogsByHand fr body other g (.call d m b rest)
  | afterNative {g d m r rest} : LogsByHand fr body other g rest → LogsByHand fr body other g (.native d m r rest)
  | inTry {g b l o h rest} : LogsByHand fr body other g b → LogsByHand fr body other g (.handler b l o h rest)
  | afterTry {g b l o h rest} : LogsByHand fr body other g rest → LogsByHand fr body other g (.handler b l o h rest)

/-- The frames of the program itself. -/
def ofProgram (tb : List TbFrame) : List TbFrame := tb.filter fun f => match f with | .user _ => true | .wrapper _ => false

/-- How many of the records were made by decorators about this exception. -/
def recordsAbout (e : Nat) (records : List TbRecord) : Nat := records.countP fun r => r.auto.isSome && r.exc == e

end TraceSpec
end Polog
