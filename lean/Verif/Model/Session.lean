import Verif.Model.Value
/-
The GSP session: object registry, command queues, recording decorator, replay.
Models gsp/object.py and gsp/io/command.py.
-/

namespace Verif

/-- All mutable module-level state of `gsp`: the heap of objects, `Object.objects`
(gsp/object.py:64), `OID.counter` (:23, number of identifiers minted so far),
`Object.record` (:61), `CID.counter` (gsp/io/command.py:314), `__record__` (:24), the
queues, `NamedSingleton._instances` (:60), `CommandQueue.active` (:81) and
`converters` (gsp/io/convert.py:6). -/
structure World where
  heap : List Obj
  objects : Dict Int Nat
  oidCounter : Nat
  objRecord : Bool
  cidCounter : Nat
  recording : Bool
  queues : List Queue
  instances : Dict String Nat
  active : Option Nat
  converters : Dict (String × String) Nat
deriving DecidableEq, Repr

/-- A freshly started process (gsp/object.py:23,61,64; gsp/io/command.py:24,60,81,314;
gsp/io/convert.py:6 before any `register`). -/
def World.fresh : World :=
  { heap := [], objects := [], oidCounter := 0, objRecord := true, cidCounter := 0,
    recording := true, queues := [], instances := [], active := none, converters := [] }

/-- A conversion function: a pure one, one that builds an object (the `*_to_Buffer`
converters of gsp_matplotlib/__init__.py:24-68), or one that looks an id up in the registry
(gsp/__init__.py:47-49). -/
inductive ConvFn where
  | pure (f : Val → Except Err Val)
  | make (cls : String) (kwargs : Val → Dict String Val)
  | look (key : Val → Option Int)

/-- The program around the session: classes with their instrumented functions, the name
given to the decorator (gsp/io/command.py:192), method resolution orders, bodies that
raise, conversion functions, and the evaluation of `backend_module.<path>`.
A body that raises does so after `Object.__init__` and leaves the object's log as it was. -/
structure Prog where
  sig : String → String → Option Sig
  override : String → String → Option String
  mro : String → List String
  metaBases : String → List String
  raises : Obj → String → Dict String Val → Option Err
  conv : Nat → Val → ConvFn
  resolve : String → Option String

/-! ### Objects -/

/-- `Object.__init__` on a new instance of class `cls` (gsp/object.py:66-69, OID 25-34). -/
def newObject (w : World) (cls : String) : World × Nat :=
  let r := w.heap.length
  let id : Int := 1 + (w.oidCounter : Int)
  ({ w with
      heap := w.heap ++ [{ id := id, cls := cls, log := [], born := id }]
      oidCounter := w.oidCounter + 1
      objects := if w.objRecord then dset w.objects id r else w.objects }, r)

/-- Assigning the `id` attribute (gsp/object.py:75-80). -/
def setId (w : World) (r : Nat) (newid : Int) : World :=
  match w.heap[r]? with
  | none => w
  | some o =>
    { w with
      objects :=
        if dhas w.objects o.id then dset (ddel w.objects o.id) newid r else w.objects
      heap := w.heap.set r { o with id := newid } }

/-- Running a body: the call is appended to the object's log. -/
def logCall (w : World) (r : Nat) (meth : String) (bound : Dict String Val) : World :=
  match w.heap[r]? with
  | none => w
  | some o => { w with heap := w.heap.set r { o with log := o.log ++ [(meth, bound)] } }

/-! ### Queues -/

/-- `super().__call__(name)`: `CommandQueue.__init__` (gsp/io/command.py:83-95). -/
def newQueue (w : World) (name : String) : World × Nat :=
  let q := w.queues.length
  ({ w with
      queues := w.queues ++ [{ name := name, readonly := false, commands := [] }]
      active := some q }, q)

/-- `CommandQueue(name)` (gsp/io/command.py:62-69). `none` stands for `None`. -/
def getQueue (w : World) (name : Option String) : World × Nat :=
  match name with
  | none => activeOrNew w
  | some n =>
    if n = "active" then activeOrNew w
    else match dget w.instances n with
      | some q => (w, q)
      | none =>
        let (w', q) := newQueue w n
        ({ w' with instances := dset w'.instances n q }, q)
where
  /-- gsp/io/command.py:63-66: no entry is made in `_instances`. -/
  activeOrNew (w : World) : World × Nat :=
    match w.active with
    | some q => (w, q)
    | none => newQueue w "default"

/-- Replacing queue number `q`. -/
def setQueue (w : World) (q : Nat) (f : Queue → Queue) : World :=
  { w with queues := w.queues.modify q f }

/-- `CommandQueue.empty` (gsp/io/command.py:113-117). -/
def emptyQueue (w : World) (q : Nat) : World := setQueue w q (fun u => { u with commands := [] })

/-- `CommandQueue.push` (gsp/io/command.py:157-178) on one queue. -/
def Queue.push (u : Queue) (c : Cmd) : Queue × Bool :=
  if u.readonly then (u, false) else ({ u with commands := u.commands ++ [c] }, true)

/-! ### Converters (gsp/io/convert.py) -/

/-- `is_registered` (gsp/io/convert.py:73-80). -/
def isRegistered (cs : Dict (String × String) Nat) (src dst : String) : Option Nat :=
  (dget cs (src, dst)).or (dget cs ("*", dst))

/-- `get_converter` called with two types (gsp/io/convert.py:83-128): the name of the
first, then the names of the bases of its metaclass (lines 122-126). -/
def getConverterType (P : Prog) (cs : Dict (String × String) Nat) (src dst : String) :
    Option Nat :=
  match isRegistered cs src dst with
  | some f => some f
  | none => (P.metaBases src).findSome? (fun b => isRegistered cs b dst)

/-! ### The `command` decorator (gsp/io/command.py:192-305) -/

/-- `value.__class__.__name__`. -/
def typeName (w : World) : Val → String
  | .none => "NoneType"
  | .bool _ => "bool"
  | .int _ => "int"
  | .oid _ => "OID"
  | .float _ => "float"
  | .str _ => "str"
  | .bytes _ => "bytes"
  | .list _ => "list"
  | .tuple _ => "tuple"
  | .inst c _ => c
  | .obj r => match w.heap[r]? with | some o => o.cls | none => "Object"
  | .conv _ _ => "Converter"

/-- Python's binding of `*args, **kwargs` to a signature (line 210): too many positional
arguments, unknown or repeated names and missing arguments are `TypeError`s. -/
def bindArgs (sg : Sig) (args : List Val) (kwargs : Dict String Val) :
    Except Err (Dict String Val) :=
  if sg.params.length < args.length then .error .typeError
  else if kwargs.any (fun p => !(sg.params.drop args.length).contains p.1) then
    .error .typeError
  else
    let pos := sg.params.zip args
    (sg.params.mapM (fun k =>
      match dget pos k with
      | some v => some (k, v)
      | none => match dget kwargs k with
        | some v => some (k, v)
        | none => (dget sg.defaults k).map (fun v => (k, v)))).elim
      (.error .typeError) .ok

/-- The key under which a value is stored: object values get the suffix `(id)`
(lines 230-231, 237-238, 244-245). -/
def keyFor (k : String) (v : Val) : String := if v.isObj then k ++ "(id)" else k

/-- Lines 224-232: `id`, then positional arguments. -/
def collectPos (selfId : Int) (keys : List String) (args : List Val) : Dict String Val :=
  (keys.zip args).foldl (fun d p => dset d (keyFor p.1 p.2) p.2) [("id", .oid selfId)]

/-- Lines 235-239 and 242-246: keys already present are skipped. -/
def collectMissing (d : Dict String Val) (more : Dict String Val) : Dict String Val :=
  more.foldl (fun d p => if dhas d p.1 then d else dset d (keyFor p.1 p.2) p.2) d

/-- Lines 224-246: the parameters of the command. -/
def collect (sg : Sig) (selfId : Int) (args : List Val) (kwargs : Dict String Val) :
    Dict String Val :=
  collectMissing (collectMissing (collectPos selfId sg.params args) kwargs) sg.defaults

/-- Lines 254-256: `parameter_type`, the base class when the name contains `[`. -/
def paramType (P : Prog) (c : String) : String :=
  if hasChar '[' c then ((P.mro c).drop 1).headD c else c

/-- Lines 267-269: equal, or the class is itself an instance of the annotated type
(only `type` and `object`), or a subclass. -/
def matchesType (P : Prog) (ptype ann : String) : Bool :=
  ann = ptype || ann = "type" || ann = "object" || (P.mro ptype).contains ann

/-- Lines 277-287: every base type is tried, the last converter found is kept. -/
def searchConv (P : Prog) (cs : Dict (String × String) Nat) (bases : List String)
    (ann : String) (v : Val) (st : Bool × Val) : Bool × Val :=
  bases.foldl (fun st b =>
    match getConverterType P cs b ann with
    | some f => (true, .conv f v)
    | none => st) st

/-- Lines 265-287: the loop over the annotated types; the state is (`check`,
`parameters[key]`). -/
def checkLoop (P : Prog) (cs : Dict (String × String) Nat) (ptype : String)
    (bases : List String) (v : Val) : List String → Bool × Val → Bool × Val
  | [], st => st
  | ann :: anns, st =>
    if matchesType P ptype ann then (true, st.2)
    else if ptype = "NoneType" then (true, st.2)
    else checkLoop P cs ptype bases v anns (searchConv P cs bases ann v st)

/-- Lines 250-294 for one parameter. -/
def checkParam (P : Prog) (w : World) (annots : Dict String (List String))
    (key : String) (v : Val) : Except Err Val :=
  match dget annots key with
  | none => .ok v
  | some anns =>
    let c := typeName w v
    match checkLoop P w.converters (paramType P c) (P.mro c) v anns (false, v) with
    | (true, v') => .ok v'
    | (false, _) => .error .valueError

/-- Lines 250-294 for all parameters, in order. -/
def checkParams (P : Prog) (w : World) (annots : Dict String (List String)) :
    Dict String Val → Except Err (Dict String Val)
  | [] => .ok []
  | (k, v) :: ps =>
    match checkParam P w annots k v with
    | .error e => .error e
    | .ok v' =>
      match checkParams P w annots ps with
      | .error e => .error e
      | .ok ps' => .ok ((k, v') :: ps')

/-- `Command.__init__` lines 366-368: objects are replaced by their ids. -/
def stripObjs (w : World) (ps : Dict String Val) : Dict String Val :=
  ps.map (fun p => (p.1, match p.2 with
    | .obj r => match w.heap[r]? with | some o => .oid o.id | none => .obj r
    | v => v))

/-- `Command(...)` and `queue.push(...)` (lines 299-300, 331-370). -/
def pushCmd (w : World) (q : Nat) (cls meth : String) (ps : Dict String Val) : World :=
  let c : Cmd := { cid := w.cidCounter + 1, cls := cls, meth := meth, params := stripObjs w ps }
  let w := { w with cidCounter := w.cidCounter + 1 }
  setQueue w q (fun u => (u.push c).1)

/-- What `inner` does after the body (lines 212-303). -/
def recordCall (P : Prog) (w : World) (r : Nat) (func : String) (sg : Sig)
    (args : List Val) (kwargs : Dict String Val) (noCommand : Bool) :
    World × Except Err Unit :=
  if !w.recording then (w, .ok ())
  else
    let (w, q) := getQueue w none
    match w.heap[r]? with
    | none => (w, .ok ())
    | some o =>
      match checkParams P w sg.annots (collect sg o.id args kwargs) with
      | .error e => (w, .error e)
      | .ok ps =>
        match w.queues[q]? with
        | none => (w, .ok ())
        | some u =>
          if !noCommand && !u.readonly then
            (pushCmd w q o.cls ((P.override o.cls func).getD func) ps, .ok ())
          else (w, .ok ())

/-- Calling an instrumented method on an existing object (lines 202-303). -/
def callMethod (P : Prog) (w : World) (r : Nat) (func : String) (args : List Val)
    (kwargs : Dict String Val) (noCommand : Bool) : World × Except Err Unit :=
  match w.heap[r]? with
  | none => (w, .error .attributeError)
  | some o =>
    match P.sig o.cls func with
    | none => (w, .error .attributeError)
    | some sg =>
      match bindArgs sg args kwargs with
      | .error e => (w, .error e)
      | .ok bound =>
        match P.raises o func bound with
        | some e => (w, .error e)
        | none => recordCall P (logCall w r func bound) r func sg args kwargs noCommand

/-- Calling a class: `Object.__init__` in the constructor body, then the decorator. -/
def construct (P : Prog) (w : World) (cls : String) (args : List Val)
    (kwargs : Dict String Val) (noCommand : Bool) : World × Except Err Nat :=
  match P.sig cls "__init__" with
  | none => (w, .error .attributeError)
  | some sg =>
    match bindArgs sg args kwargs with
    | .error e => (w, .error e)
    | .ok bound =>
      let r := (newObject w cls).2
      let w1 := (newObject w cls).1
      match w1.heap[r]? with
      | none => (w1, .error .attributeError)
      | some o =>
        match P.raises o "__init__" bound with
        | some e => (w1, .error e)
        | none =>
          match recordCall P (logCall w1 r "__init__" bound) r "__init__" sg args kwargs noCommand with
          | (w2, .error e) => (w2, .error e)
          | (w2, .ok ()) => (w2, .ok r)

/-! ### Replay (gsp/io/command.py:409-455 and 132-154) -/

/-- `Converter.__call__` (gsp/io/convert.py:26-27). A pure conversion yields a value; an
object-building one calls the class. -/
def callConv (P : Prog) (w : World) (f : Nat) (v : Val) : World × Except Err Val :=
  match P.conv f v with
  | .pure g => (w, g v)
  | .make cls kw =>
    match construct P w cls [] (kw v) false with
    | (w', .ok r) => (w', .ok (.obj r))
    | (w', .error e) => (w', .error e)
  | .look key =>
    match (key v).bind (dget w.objects) with
    | some r => (w, .ok (.obj r))
    | none => (w, .error .keyError)

/-- Lines 416-427: resolving the references. An `OID` value without the `(id)` suffix
goes to the dictionary that is about to be dropped (line 422). `Object.objects[value]`
raises `KeyError` for a value that is no registered id. -/
def resolveParams (P : Prog) : World → Dict String Val → Dict String Val →
    World × Except Err (Dict String Val)
  | w, [], acc => (w, .ok acc)
  | w, (k, v) :: ps, acc =>
    if endsWithId k then
      match v with
      | .oid n | .int n =>
        match dget w.objects n with
        | some r => resolveParams P w ps (dset acc (dropId k) (.obj r))
        | none => (w, .error .keyError)
      | _ => (w, .error .keyError)
    else match v with
      | .oid n =>
        match dget w.objects n with
        | some _ => resolveParams P w ps acc
        | none => (w, .error .keyError)
      | .conv f v =>
        match callConv P w f v with
        | (w', .ok v') => resolveParams P w' ps (dset acc k v')
        | (w', .error e) => (w', .error e)
      | v => resolveParams P w ps (dset acc k v)

/-- The numeric value of the `id` parameter. -/
def idOf : Val → Option Int
  | .oid n => some n
  | .int n => some n
  | _ => none

/-- `Command.execute` (lines 409-455). With a dot in the method name, line 436 splits
it, and line 438 or 440 subscripts or passes the builtin function `globals`, which raises
`TypeError` (`ValueError` when there are several dots). -/
def execute (P : Prog) (w : World) (c : Cmd) : World × Except Err Unit :=
  match dget c.params "id" with
  | none => (w, .error .keyError)
  | some idv =>
    match idOf idv with
    | none => (w, .error .keyError)
    | some oid =>
      match resolveParams P w (ddel c.params "id") [] with
      | (w, .error e) => (w, .error e)
      | (w, .ok ps) =>
        if hasChar '.' c.meth then
          if (pySplit '.' c.meth).length = 2 then (w, .error .typeError)
          else (w, .error .valueError)
        else if c.meth = "__init__" then
          match P.resolve c.cls with
          | none => (w, .error .attributeError)
          | some cls =>
            match construct P w cls [] ps false with
            | (w, .error e) => (w, .error e)
            | (w, .ok r) =>
              let w := setId w r oid
              ({ w with objects := dset w.objects oid r }, .ok ())
        else
          match dget w.objects oid with
          | none => (w, .error .keyError)
          | some r => callMethod P w r c.meth [] ps false

/-- The loop of `CommandQueue.run` (lines 152-153). -/
def runCmds (P : Prog) : World → List Cmd → World × Except Err Unit
  | w, [] => (w, .ok ())
  | w, c :: cs =>
    match execute P w c with
    | (w', .error e) => (w', .error e)
    | (w', .ok ()) => runCmds P w' cs

/-- `CommandQueue.run` (lines 132-154). There is no `finally`: line 154 is skipped when a
command raises. -/
def runQueue (P : Prog) (w : World) (q : Nat) : World × Except Err Unit :=
  match w.queues[q]? with
  | none => (w, .error .attributeError)
  | some u =>
    match runCmds P (setQueue w q (fun u => { u with readonly := true })) u.commands with
    | (w', .error e) => (w', .error e)
    | (w', .ok ()) => (setQueue w' q (fun x => { x with readonly := u.readonly }), .ok ())

/-! ### Sessions -/

/-- What a program can do with a session. -/
inductive Op where
  | create (cls : String) (args : List Val) (kwargs : Dict String Val) (noCommand : Bool)
  | call (r : Nat) (func : String) (args : List Val) (kwargs : Dict String Val)
      (noCommand : Bool)
  | queue (name : Option String)
  | empty (q : Nat)
  | setReadonly (q : Nat) (b : Bool)
  | record (b : Bool)                     -- gsp/io/command.py:27-41
  | objRecord (b : Bool)                  -- `Object.record = b`
  | setId (r : Nat) (id : Int)
  | resetObjects                          -- `Object.objects = {}`
  | run (q : Nat)
  | register (src dst : String) (f : Nat) -- gsp/io/convert.py:46-70, one source type
deriving DecidableEq, Repr

/-- One operation: the new state, and the exception it raised, if any. -/
def step (P : Prog) (w : World) : Op → World × Except Err Unit
  | .create cls args kwargs nc =>
    match construct P w cls args kwargs nc with
    | (w', .ok _) => (w', .ok ())
    | (w', .error e) => (w', .error e)
  | .call r func args kwargs nc => callMethod P w r func args kwargs nc
  | .queue name => ((getQueue w name).1, .ok ())
  | .empty q => (emptyQueue w q, .ok ())
  | .setReadonly q b => (setQueue w q (fun u => { u with readonly := b }), .ok ())
  | .record b => ({ w with recording := b }, .ok ())
  | .objRecord b => ({ w with objRecord := b }, .ok ())
  | .setId r id => (setId w r id, .ok ())
  | .resetObjects => ({ w with objects := [] }, .ok ())
  | .run q => runQueue P w q
  | .register src dst f =>
    if dhas w.converters (src, dst) then (w, .error .typeError)
    else ({ w with converters := dset w.converters (src, dst) f }, .ok ())

/-- The state after a history of operations; a raised exception does not end the session. -/
def runOps (P : Prog) (w : World) (ops : List Op) : World :=
  ops.foldl (fun w op => (step P w op).1) w

end Verif
