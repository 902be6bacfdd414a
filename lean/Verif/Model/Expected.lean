/-!
# `trajopt::expected` (/repo/include/trajopt/util/expected)

Objects of type `expected<T, E>`, `T` not void, in a store, down to the lifetimes of the contained
objects.  Copying, moving, assigning and constructing a `T` or `E` may throw unless the type says
`noexcept`; an oracle decides.  The trivially copyable specialisations are not modelled (they differ
only in who writes the same code), nor are builds without exceptions.  The constructors from an
`initializer_list` do what those from other arguments do (`newVal`, `newErr`).
-/

namespace Trajopt.Exp

/-- What stands in the union (expected:509-513): a `T`, an `unexpected<E>`, or no live object. -/
inductive Cell (T E : Type) where
  | raw
  | val (v : T)
  | err (e : E)
  deriving DecidableEq, Repr

/-- An `expected<T, E>` (expected_storage_base, expected:470-515). -/
structure Obj (T E : Type) where
  hasVal : Bool
  cell : Cell T E
  deriving DecidableEq, Repr

/-- What is known of a contained type: which of its operations are `noexcept`, and what it leaves
behind. -/
structure Elem (T : Type) where
  nothrowCopy : Bool
  nothrowMove : Bool
  nothrowCopyAssign : Bool
  nothrowMoveAssign : Bool
  /-- the state of an object moved from -/
  moved : T → T
  /-- the state of an object after `x = std::move(x)` -/
  selfMoved : T → T
  /-- the state of an object (first argument) after an assignment (of the second) threw -/
  spoiled : T → T → T

/-- Ways not to return. -/
inductive Stop where
  /-- an exception leaves the function -/
  | threw
  /-- `std::terminate`: an exception would leave a `noexcept` function -/
  | terminated
  /-- undefined behaviour -/
  | undefined
  deriving DecidableEq, Repr

/-- The objects, the oracle (the next operation that may throw does so if the head is `true`; none
throws when it is used up) and the number of objects overwritten or abandoned without being destroyed. -/
structure World (T E : Type) where
  objs : Nat → Option (Obj T E)
  oracle : List Bool
  leaks : Nat

/-- Programs.  The world survives a `Stop`. -/
abbrev M (T E α : Type) := EStateM Stop (World T E) α

section
variable {T E α : Type}

/-- An operation of an element type: constructing, assigning or moving a `T` or `E`. An operation
that throws is taken to have changed nothing, except an assignment (see `assignVal`). -/
def mayThrow (nothrow : Bool) : M T E Unit :=
  if nothrow then pure () else do
    let w ← get
    match w.oracle with
    | [] => pure ()
    | b :: bs =>
      set { w with oracle := bs }
      if b then throw .threw

/-- The object `i`, which must exist. -/
def obj (i : Nat) : M T E (Obj T E) := do
  match (← get).objs i with
  | some o => pure o
  | none => throw .undefined

/-- Overwrite the object `i`. -/
def put (i : Nat) (o : Obj T E) : M T E Unit :=
  modify fun w => { w with objs := fun k => if k = i then some o else w.objs k }

/-- `m_has_val` (expected:514, 888, 2044). -/
def hasValue (i : Nat) : M T E Bool := return (← obj i).hasVal

/-- `m_has_val = b` (expected:732, 738, 745, 1752, 1780, 1803, 1818, 1831, 1849). -/
def setHas (i : Nat) (b : Bool) : M T E Unit := do put i { ← obj i with hasVal := b }

/-- Read the `T` (expected:890-895); there must be one. -/
def readVal (i : Nat) : M T E T := do
  match (← obj i).cell with
  | .val v => pure v
  | _ => throw .undefined

/-- Read the `unexpected<E>` (expected:897-908); there must be one. -/
def readErr (i : Nat) : M T E E := do
  match (← obj i).cell with
  | .err e => pure e
  | _ => throw .undefined

/-- Give the live `T` another state. -/
def writeVal (i : Nat) (v : T) : M T E Unit := do
  match (← obj i).cell with
  | .val _ => put i { ← obj i with cell := .val v }
  | _ => throw .undefined

/-- Give the live `unexpected<E>` another state. -/
def writeErr (i : Nat) (e : E) : M T E Unit := do
  match (← obj i).cell with
  | .err _ => put i { ← obj i with cell := .err e }
  | _ => throw .undefined

/-- Placement new of a `T` (expected:731, 737, 1751, 1779, 1833, 1841, 1848, 1938, 1951, 1972). -/
def placeVal (i : Nat) (v : T) : M T E Unit := do
  let o ← obj i
  if o.cell matches .raw then pure () else modify fun w => { w with leaks := w.leaks + 1 }
  put i { o with cell := .val v }

/-- Placement new of an `unexpected<E>` (expected:743-744, 1802, 1817, 1936, 1949, 1974). -/
def placeErr (i : Nat) (e : E) : M T E Unit := do
  let o ← obj i
  if o.cell matches .raw then pure () else modify fun w => { w with leaks := w.leaks + 1 }
  put i { o with cell := .err e }

/-- `m_val.~T()` (expected:504, 910, 1828, 1840, 1935, 1946, 1973). -/
def destroyVal (i : Nat) : M T E Unit := do
  let _ ← readVal i
  put i { ← obj i with cell := .raw }

/-- `m_unexpect.~unexpected<E>()` (expected:506, 761, 777, 796, 819, 832, 1750, 1775, 1830, 1844, 1937,
1950, 1969). -/
def destroyErr (i : Nat) : M T E Unit := do
  let _ ← readErr i
  put i { ← obj i with cell := .raw }

/-- The body of a `noexcept` function. -/
def noexcept (m : M T E α) : M T E α :=
  tryCatch m fun s => if s = .threw then throw .terminated else throw s

/-- `try { m } catch (...) { h; throw; }` -/
def catchRethrow (m : M T E α) (h : M T E Unit) : M T E α :=
  tryCatch m fun s => if s = .threw then do h; throw .threw else throw s

variable (t : Elem T) (e : Elem E)

/-- Where the right-hand side of an initialisation or assignment comes from. -/
inductive Src (α : Type) where
  /-- a `const&` to an object outside the store -/
  | copy (a : α)
  /-- an rvalue outside the store -/
  | move (a : α)

/-- The value of a source, and whether constructing from it is `noexcept`. -/
def Src.get : Src α → α
  | .copy a => a
  | .move a => a

/-- Whether construction from this source is `noexcept`. -/
def Src.nothrow (x : Elem α) : Src α → Bool
  | .copy _ => x.nothrowCopy
  | .move _ => x.nothrowMove

/-- Whether assignment from this source is `noexcept`. -/
def Src.nothrowAssign (x : Elem α) : Src α → Bool
  | .copy _ => x.nothrowCopyAssign
  | .move _ => x.nothrowMoveAssign

/-- Move the `T` of `i` out into a new object (expected:820, 835, 841, 1032, 1934, 1945, 1972). -/
def takeVal (i : Nat) : M T E T := do
  let v ← readVal i
  mayThrow t.nothrowMove
  writeVal i (t.moved v)
  return v

/-- Move the `unexpected<E>` of `i` out into a new object (expected:795, 831, 879, 1034, 1774, 1843, 1936,
1949, 1968). -/
def takeErr (i : Nat) : M T E E := do
  let v ← readErr i
  mayThrow e.nothrowMove
  writeErr i (e.moved v)
  return v

/-- `val() = source` (expected:876, 1748, 1772, 1954). -/
def assignVal (i : Nat) (s : Src T) : M T E Unit := do
  let v ← readVal i
  tryCatch (mayThrow (s.nothrowAssign t)) fun x => do
    writeVal i (t.spoiled v s.get)
    throw x
  writeVal i s.get

/-- `err() = source` (expected:802, 837, 883, 1782, 1799, 1814, 1851, 1977). -/
def assignErr (i : Nat) (s : Src E) : M T E Unit := do
  let v ← readErr i
  tryCatch (mayThrow (s.nothrowAssign e)) fun x => do
    writeErr i (e.spoiled v s.get)
    throw x
  writeErr i s.get

/-- The constructors from a value (expected:476-488, 1601-1613, 1722-1732). -/
def newVal (i : Nat) (s : Src T) : M T E Unit := do
  mayThrow (s.nothrow t)
  put i ⟨true, .val s.get⟩

/-- The constructors from an error (expected:489-500, 1615-1662). -/
def newErr (i : Nat) (s : Src E) : M T E Unit := do
  mayThrow (s.nothrow e)
  put i ⟨false, .err s.get⟩

/-- The constructors from another `expected<U, G>` (expected:1664-1720): a `T` is default-constructed
(expected:473, 1671), and `construct` or `construct_error` makes the converted value or error in the
same place. -/
def convert (i : Nat) (dflt : T) (nothrowDefault nothrow : Bool) (x : T ⊕ E) : M T E Unit := do
  mayThrow nothrowDefault
  put i ⟨true, .val dflt⟩
  match x with
  | .inl v => noexcept do
    mayThrow nothrow
    placeVal i v
    setHas i true
  | .inr x => noexcept do
    mayThrow nothrow
    placeErr i x
    setHas i false

/-- The storage of object `i` ends, with what still lives in it (not in the source: the caller does
this). -/
def release (i : Nat) : M T E Unit := do
  let o ← obj i
  if o.cell matches .raw then pure () else modify fun w => { w with leaks := w.leaks + 1 }
  modify fun w => { w with objs := fun k => if k = i then none else w.objs k }

/-- The destructor (expected:502-508). -/
def delete (i : Nat) : M T E Unit := do
  if ← hasValue i then destroyVal i else destroyErr i
  release i

/-- The copy constructor (expected:990-997) of `i` from `j`; `construct_with` and `construct_error`
are `noexcept` (expected:735-746). -/
def copyConstruct (i j : Nat) : M T E Unit := do
  let rhsHas ← hasValue j
  put i ⟨false, .raw⟩
  if rhsHas then
    noexcept do
      let v ← readVal j
      mayThrow t.nothrowCopy
      placeVal i v
      setHas i true
  else
    noexcept do
      let x ← readErr j
      mayThrow e.nothrowCopy
      placeErr i x
      setHas i false

/-- The move constructor (expected:1028-1036). -/
def moveConstruct (i j : Nat) : M T E Unit := do
  let rhsHas ← hasValue j
  put i ⟨false, .raw⟩
  if rhsHas then
    noexcept do
      let v ← takeVal t j
      placeVal i v
      setHas i true
  else
    noexcept do
      let x ← takeErr e j
      placeErr i x
      setHas i false

/-- `assign_common` (expected:872-886) with a `const&`. -/
def assignCommonCopy (i j : Nat) : M T E Unit := do
  if ← hasValue i then
    if ← hasValue j then
      assignVal t i (.copy (← readVal j))
    else
      destroyVal i
      noexcept do
        let x ← readErr j
        mayThrow e.nothrowCopy
        placeErr i x
        setHas i false
  else
    if !(← hasValue j) then
      assignErr e i (.copy (← readErr j))

/-- Element move assignment `a = std::move(b)` between objects of the store
(expected:876). -/
def moveAssignVal (i j : Nat) : M T E Unit := do
  let v ← readVal j
  if i = j then
    mayThrow t.nothrowMoveAssign
    writeVal i (t.selfMoved v)
  else
    assignVal t i (.move v)
    writeVal j (t.moved v)

/-- Element move assignment of errors (expected:883). -/
def moveAssignErr (i j : Nat) : M T E Unit := do
  let v ← readErr j
  if i = j then
    mayThrow e.nothrowMoveAssign
    writeErr i (e.selfMoved v)
  else
    assignErr e i (.move v)
    writeErr j (e.moved v)

/-- `assign_common` (expected:872-886) with an rvalue. -/
def assignCommonMove (i j : Nat) : M T E Unit := do
  if ← hasValue i then
    if ← hasValue j then
      moveAssignVal t i j
    else
      destroyVal i
      noexcept do
        let x ← takeErr e j
        placeErr i x
        setHas i false
  else
    if !(← hasValue j) then
      moveAssignErr e i j

/-- Copy assignment (expected:754-811), the overload chosen by the properties of `T`. -/
def copyAssign (i j : Nat) : M T E Unit :=
  if t.nothrowCopy then
    noexcept do
      if !(← hasValue i) && (← hasValue j) then
        destroyErr i
        construct i (← readVal j)
      else assignCommonCopy t e i j
  else if t.nothrowMove then
    noexcept do
      if !(← hasValue i) && (← hasValue j) then
        let tmp ← readVal j
        mayThrow t.nothrowCopy
        destroyErr i
        noexcept do
          placeVal i tmp
          setHas i true
      else assignCommonCopy t e i j
  else do
    if !(← hasValue i) && (← hasValue j) then
      let tmp ← takeErr e i
      destroyErr i
      catchRethrow (construct i (← readVal j)) (assignErr e i (.move tmp))
    else assignCommonCopy t e i j
where
  /-- `construct(rhs.get())`, `noexcept` (expected:729-733) -/
  construct (i : Nat) (v : T) : M T E Unit := noexcept do
    mayThrow t.nothrowCopy
    placeVal i v
    setHas i true

/-- Move assignment (expected:813-846). -/
def moveAssign (i j : Nat) : M T E Unit :=
  if t.nothrowMove then
    noexcept do
      if !(← hasValue i) && (← hasValue j) then
        destroyErr i
        construct i j
      else assignCommonMove t e i j
  else do
    if !(← hasValue i) && (← hasValue j) then
      let tmp ← takeErr e i
      destroyErr i
      catchRethrow (construct i j) (assignErr e i (.move tmp))
    else assignCommonMove t e i j
where
  /-- `construct(std::move(rhs).get())`, `noexcept` (expected:729-733) -/
  construct (i j : Nat) : M T E Unit := noexcept do
    let v ← takeVal t j
    placeVal i v
    setHas i true

/-- `operator=(U&&)` (expected:1734-1792) for `U` a `T`; both overloads need an `E` that moves
without throwing (otherwise the call goes through the constructor and move assignment). -/
def assignValue (i : Nat) (s : Src T) : M T E Unit := do
  if ← hasValue i then assignVal t i s
  else if s.nothrow t then
    destroyErr i
    mayThrow (s.nothrow t)
    placeVal i s.get
    setHas i true
  else
    let tmp ← takeErr e i
    destroyErr i
    catchRethrow (do
      mayThrow (s.nothrow t)
      placeVal i s.get
      setHas i true) (assignErr e i (.move tmp))

/-- `operator=(unexpected<G>)` (expected:1794-1822); the `const&` overload exists only for an `E` that
copies without throwing, the `&&` overload is `noexcept`. -/
def assignUnexpected (i : Nat) (s : Src E) : M T E Unit :=
  let body : M T E Unit := do
    if !(← hasValue i) then assignErr e i s
    else
      destroyVal i
      mayThrow (s.nothrow e)
      placeErr i s.get
      setHas i false
  match s with
  | .copy _ => body
  | .move _ => noexcept body

/-- `emplace` (expected:1824-1859) of a value whose construction is `noexcept` or not. -/
def emplace (i : Nat) (nothrow : Bool) (v : T) : M T E Unit := do
  if nothrow then
    if ← hasValue i then destroyVal i
    else
      destroyErr i
      setHas i true
    mayThrow nothrow
    placeVal i v
  else
    if ← hasValue i then
      destroyVal i
      mayThrow nothrow
      placeVal i v
    else
      let tmp ← takeErr e i
      destroyErr i
      catchRethrow (do
        mayThrow nothrow
        placeVal i v
        setHas i true) (assignErr e i (.move tmp))

/-- `emplace` (expected:1861-1897) of a value constructed from an `initializer_list`, `noexcept` or not. -/
def emplaceList (i : Nat) (nothrow : Bool) (v : T) : M T E Unit := do
  if ← hasValue i then
    mayThrow nothrow
    assignVal t i (.move v)
  else if nothrow then
    destroyErr i
    mayThrow nothrow
    placeVal i v
    setHas i true
  else
    let tmp ← takeErr e i
    destroyErr i
    catchRethrow (do
      mayThrow nothrow
      placeVal i v
      setHas i true) (assignErr e i (.move tmp))

/-- Element `std::swap` (expected:1913-1916); what is left after an exception is described by `spoiled`. -/
def swapVal (i j : Nat) : M T E Unit := do
  let a ← readVal i
  let b ← readVal j
  tryCatch (mayThrow (t.nothrowMove && t.nothrowMoveAssign)) fun x => do
    writeVal i (t.spoiled a b)
    writeVal j (t.spoiled b a)
    throw x
  writeVal i b
  writeVal j a

/-- Element `std::swap` of errors (expected:2005-2006). -/
def swapErr (i j : Nat) : M T E Unit := do
  let a ← readErr i
  let b ← readErr j
  tryCatch (mayThrow (e.nothrowMove && e.nothrowMoveAssign)) fun x => do
    writeErr i (e.spoiled a b)
    writeErr j (e.spoiled b a)
    throw x
  writeErr i b
  writeErr j a

/-- `std::swap(this->m_has_val, rhs.m_has_val)` (expected:1939, 1952, 1975). -/
def swapHas (i j : Nat) : M T E Unit := do
  let a ← hasValue i
  let b ← hasValue j
  setHas i b
  setHas j a

/-- `swap_where_only_one_has_value_and_t_is_not_void` (expected:1931-1986); `i` has the value. -/
def swapOne (i j : Nat) : M T E Unit :=
  if t.nothrowMove && e.nothrowMove then noexcept do
    let temp ← takeVal t i
    destroyVal i
    placeErr i (← takeErr e j)
    destroyErr j
    mayThrow t.nothrowMove
    placeVal j temp
    swapHas i j
  else if t.nothrowMove then do
    let temp ← takeVal t i
    destroyVal i
    catchRethrow (do
      placeErr i (← takeErr e j)
      destroyErr j
      mayThrow t.nothrowMove
      placeVal j temp
      swapHas i j) (assignVal t i (.move temp))
  else do
    let temp ← takeErr e j
    destroyErr j
    catchRethrow (do
      placeVal j (← takeVal t i)
      destroyVal i
      mayThrow e.nothrowMove
      placeErr i temp
      swapHas i j) (assignErr e j (.move temp))

/-- `swap` (expected:1989-2008), for a `T` or `E` that moves without throwing. -/
def swap (i j : Nat) : M T E Unit := do
  if (← hasValue i) && (← hasValue j) then swapVal t i j
  else if !(← hasValue i) && (← hasValue j) then swapOne t e j i
  else if ← hasValue i then swapOne t e i j
  else swapErr e i j

/-- The calls of a program. -/
inductive Call (T E : Type) where
  | newVal (i : Nat) (s : Src T)
  | newErr (i : Nat) (s : Src E)
  | copyConstruct (i j : Nat)
  | moveConstruct (i j : Nat)
  | delete (i : Nat)
  | copyAssign (i j : Nat)
  | moveAssign (i j : Nat)
  | assignValue (i : Nat) (s : Src T)
  | assignUnexpected (i : Nat) (s : Src E)
  | emplace (i : Nat) (nothrow : Bool) (v : T)
  | emplaceList (i : Nat) (nothrow : Bool) (v : T)
  | swap (i j : Nat)

/-- Execution of a call. -/
def Call.exec : Call T E → M T E Unit
  | .newVal i s => Exp.newVal t i s
  | .newErr i s => Exp.newErr e i s
  | .copyConstruct i j => Exp.copyConstruct t e i j
  | .moveConstruct i j => Exp.moveConstruct t e i j
  | .delete i => Exp.delete i
  | .copyAssign i j => Exp.copyAssign t e i j
  | .moveAssign i j => Exp.moveAssign t e i j
  | .assignValue i s => Exp.assignValue t e i s
  | .assignUnexpected i s => Exp.assignUnexpected e i s
  | .emplace i nothrow v => Exp.emplace e i nothrow v
  | .emplaceList i nothrow v => Exp.emplaceList t e i nothrow v
  | .swap i j => Exp.swap t e i j

/-- A program that catches exceptions and goes on. -/
def runCalls : List (Call T E) → M T E Unit
  | [] => pure ()
  | c :: cs => do
    tryCatch (c.exec t e) fun s => if s = .threw then pure () else throw s
    runCalls cs

end

/-! ### Observers and combinators, on an object as such -/

section
variable {T E U F : Type}

/-- `*x` with asserts (expected:2019-2042): `none` if the assert fails. -/
def Obj.deref (x : Obj T E) : Option T :=
  if x.hasVal then match x.cell with | .val v => some v | _ => none else none

/-- `x.error()` with asserts (expected:2076-2091). -/
def Obj.error (x : Obj T E) : Option E :=
  if x.hasVal then none else match x.cell with | .err e => some e | _ => none

/-- `x.value()` (expected:2047-2074): the exception carries the error. -/
def Obj.value (x : Obj T E) : Option (Except E T) :=
  if !x.hasVal then x.error.map .error else match x.cell with | .val v => some (.ok v) | _ => none

/-- `x.value_or(v)` (expected:2093-2108). -/
def Obj.valueOr (x : Obj T E) (v : T) : Option T := if x.hasVal then x.deref else some v

/-- `expected(in_place, v)` (expected:1604-1606). -/
def ofVal (v : T) : Obj T E := ⟨true, .val v⟩

/-- `expected(unexpect, e)` (expected:1652-1654). -/
def ofErr (e : E) : Obj T E := ⟨false, .err e⟩

/-- `and_then` (expected:2120-2130). -/
def Obj.andThen (x : Obj T E) (f : T → Obj U E) : Option (Obj U E) :=
  if x.hasVal then x.deref.map f else x.error.map ofErr

/-- `map`, `transform` (expected:2168-2178). -/
def Obj.map (x : Obj T E) (f : T → U) : Option (Obj U E) :=
  if x.hasVal then x.deref.map fun v => ofVal (f v) else x.error.map ofErr

/-- `map_error`, `transform_error` (expected:2279-2290). -/
def Obj.mapError (x : Obj T E) (f : E → F) : Option (Obj T F) :=
  if x.hasVal then x.deref.map ofVal else x.error.map fun e => ofErr (f e)

/-- `or_else` with a function returning an `expected` (expected:2394-2403). -/
def Obj.orElse (x : Obj T E) (f : E → Obj T E) : Option (Obj T E) :=
  if x.hasVal then some x else x.error.map f

/-- `or_else` with a function returning nothing (expected:2405-2414); what the function does is not
modelled. -/
def Obj.orElseVoid (x : Obj T E) : Option (Obj T E) :=
  if x.hasVal then some x else x.error.map fun _ => x

variable (eqT neT : T → T → Bool) (eqE neE : E → E → Bool)

/-- `operator==` of two `expected` (expected:2440-2446). -/
def Obj.eq (x y : Obj T E) : Option Bool :=
  if x.hasVal != y.hasVal then some false
  else if !x.hasVal then do return eqE (← x.error) (← y.error)
  else do return eqT (← x.deref) (← y.deref)

/-- `operator!=` of two `expected` (expected:2447-2453). -/
def Obj.ne (x y : Obj T E) : Option Bool :=
  if x.hasVal != y.hasVal then some true
  else if !x.hasVal then do return neE (← x.error) (← y.error)
  else do return neT (← x.deref) (← y.deref)

/-- `operator==` of two `expected<void, E>` (expected:2454-2460); the value is a unit. -/
def eqVoid (x y : Obj Unit E) : Option Bool :=
  if x.hasVal != y.hasVal then some false
  else if !x.hasVal then do return eqE (← x.error) (← y.error)
  else some true

/-- `operator!=` of two `expected<void, E>` (expected:2461-2467), which uses `==` of the errors. -/
def neVoid (x y : Obj Unit E) : Option Bool :=
  if x.hasVal != y.hasVal then some true
  else if !x.hasVal then do return eqE (← x.error) (← y.error)
  else some false

/-- `operator==` with a value (expected:2469-2476). -/
def Obj.eqVal (x : Obj T E) (v : T) : Option Bool :=
  if x.hasVal then do return eqT (← x.deref) v else some false

/-- `operator!=` with a value (expected:2477-2484). -/
def Obj.neVal (x : Obj T E) (v : T) : Option Bool :=
  if x.hasVal then do return neT (← x.deref) v else some true

/-- `operator==` with an `unexpected` (expected:2486-2493). -/
def Obj.eqErr (x : Obj T E) (e : E) : Option Bool :=
  if x.hasVal then some false else do return eqE (← x.error) e

/-- `operator!=` with an `unexpected` (expected:2494-2501). -/
def Obj.neErr (x : Obj T E) (e : E) : Option Bool :=
  if x.hasVal then some true else do return neE (← x.error) e

end

end Trajopt.Exp
