import Verif.SpecCppClient
/-
What the functions of generated clients have to do: for each function of a method, in the order of `methodSigs`, the requests that it makes, what
it returns and what is done when the answer arrives or the request has failed.
-/
namespace QtPb.Gen.Text.Spec
open QtPb.SpecCpp QtPb.SpecCpp.Client

section
variable {α : Type}

/-- What a function does: given its arguments, the world and what happens later, its result and the world. -/
abbrev Effect (α : Type) := Given → World α → Later α → Res (Option Value × World α)

/-- What happens between the call and the answer, if nothing is to be done when it arrives. -/
def meanwhile (w : World α) : Later α → World α
  | .nothing => w
  | .answered f _ => f w
  | .failed f _ => f w

def World.ask (w : World α) (f M : Text) (v : α) (target : Option (Option Nat)) : World α :=
  { w with requests := w.requests ++ [⟨f, M, v, target⟩] }

/-- One request with the object that is referred to, and what this gives is returned. -/
def plainRequest (f M : Text) (target : Given → Option (Option Nat)) : Effect α := fun g w later =>
  match w.objects (g.ref (text! "arg")) with
  | some v => .ok (some (.made w.requests.length), meanwhile (World.ask w f M v (target g)) later)
  | none => .ub

/-- One request with the object that is referred to; the callback is called with the reply once the answer is there. Without a channel there is
a warning, and nothing is called. -/
def callbackRequest (M : Text) : Effect α := fun g w later =>
  match w.objects (g.ref (text! "arg")) with
  | some v =>
    let w1 := World.ask w (text! "call") M v none
    .ok (none, match w.accepts, later with
      | true, .answered f _ => (f w1).tell (.reply (g.fn (text! "callback")) w.requests.length)
      | true, l => meanwhile w1 l
      | false, l => meanwhile (w1.tell .warning) l)
  | none => .ub

/-- The function for QML with two JavaScript functions: refused with a warning if the first cannot be called, there is no argument, or the client
does not belong to an engine. Otherwise one request; with the answer a new object of the type of the answer, that the engine deletes, is given to
the first function; the status of a failure to the second (if it can be called). -/
def scriptRequest (M : Text) (O : List Lexeme) : Effect α := fun g w later =>
  let callback := g.js (text! "callback")
  let error := g.js (text! "errorCallback")
  match callback.2, g.ptr (text! "arg"), w.hasEngine with
  | true, some a, true =>
    match w.objects a, w.accepts with
    | some v, true =>
      let w1 := World.ask w (text! "call") M v none
      .ok (none, match later with
        | .nothing => w1
        | .answered f d =>
          let w2 := f w1
          { w2 with objects := fun n => if n = w2.fresh then some (d O) else w2.objects n, fresh := w2.fresh + 1,
                    owned := w2.owned ++ [w2.fresh], told := w2.told ++ [.object callback.1 w2.fresh] }
        | .failed f s => if error.2 then (f w1).tell (.status error.1 s) else f w1)
    | _, _ => .ub
  | _, _, _ => .ok (none, meanwhile (w.tell .warning) later)

/-- The function for QML with an object for the answer: refused with a warning if there is no such object, there is no argument, or the client does
not belong to an engine. Otherwise one request; the answer is assigned to the object if it is still there, else there is a warning; the status of a
failure goes to the JavaScript function (if it can be called). -/
def objectRequest (M : Text) (O : List Lexeme) : Effect α := fun g w later =>
  let error := g.js (text! "errorCallback")
  match g.ptr (text! "ret"), g.ptr (text! "arg"), w.hasEngine with
  | some r, some a, true =>
    match w.objects a, w.accepts with
    | some v, true =>
      let w1 := World.ask w (text! "call") M v none
      .ok (none, match later with
        | .nothing => w1
        | .answered f d =>
          let w2 := f w1
          if (w2.objects r).isSome then { w2 with objects := fun n => if n = r then some (d O) else w2.objects n } else w2.tell .warning
        | .failed f s => if error.2 then (f w1).tell (.status error.1 s) else f w1)
    | _, _ => .ub
  | _, _, _ => .ok (none, meanwhile (w.tell .warning) later)

/-- The stream for QML: one request with the argument, which must not be null. -/
def streamRequest (M : Text) : Effect α := fun g w later =>
  match (g.ptr (text! "arg")).bind w.objects with
  | some v => .ok (some (.made w.requests.length), meanwhile (World.ask w (text! "stream") M v (some (g.ptr (text! "ret")))) later)
  | none => .ub

/-- What the functions of a method do. -/
def methodDoes (o : Options) (d : MethodD) : List (Effect α) :=
  let O := methodType d.output
  let M := d.name
  let ret : Given → Option (Option Nat) := fun g => some (g.ptr (text! "ret"))
  if d.streaming then
    [plainRequest (text! "stream") M (fun _ => none), plainRequest (text! "stream") M ret] ++ (if o.qml then [streamRequest M] else [])
  else
    [plainRequest (text! "call") M ret, plainRequest (text! "call") M (fun _ => none), callbackRequest M] ++
    (if o.qml then [scriptRequest M O, objectRequest M O] else [])

/-- What the functions of a client do: the constructor makes no requests. -/
def clientDoes (o : Options) (s : ServiceText) : List (Effect α) := (fun _ w later => .ok (none, meanwhile w later)) :: s.methods.flatMap (methodDoes o)

end

end QtPb.Gen.Text.Spec
