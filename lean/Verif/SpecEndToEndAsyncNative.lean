import Verif.EndToEndAsyncNative
/-
Specification for C108 over the native channel: what has happened to one call of a history.
-/
namespace QtPb.EndToEnd.Native.Async.Spec

/-- The number of calls in a history. -/
def calls (acts : List Act) : Nat := (acts.filter fun | .call .. => true | _ => false).length

/-- What happens to the call number `i`, in order. -/
def eventsOf (i : Nat) (acts : List Act) : List QtPb.Native.Ev := acts.filterMap fun
  | .event j e => if j = i then some e else none
  | _ => none

end QtPb.EndToEnd.Native.Async.Spec
