/-!
# What a socket instance listener sees (for C40, C41)

Sockets are numbered in the order in which they are created. `L`: listeners, `P`: parameter maps.
-/

namespace OatWS.Server

inductive Ev (L P : Type) where
  /-- `onAfterCreate(socket, params)` / `onAfterCreate_NonBlocking`, and whether it threw -/
  | afterCreate (l : L) (socket : Nat) (params : P) (threw : Bool)
  /-- `onBeforeDestroy(socket)` / `onBeforeDestroy_NonBlocking` -/
  | beforeDestroy (l : L) (socket : Nat)
  /-- `listen()` / `listenAsync()` on the socket begins -/
  | listenBegin (socket : Nat)
  /-- ... and ends -/
  | listenEnd (socket : Nat)
deriving DecidableEq, Repr

/-- The socket an event is about. -/
def Ev.socket : Ev L P → Nat
  | .afterCreate _ k _ _ => k
  | .beforeDestroy _ k => k
  | .listenBegin k => k
  | .listenEnd k => k

/-- What happened to socket `k`. -/
def about (k : Nat) (tr : List (Ev L P)) : List (Ev L P) := tr.filter fun e => e.socket == k

/-- `onAfterCreate`, if there is a listener. -/
def afterCreated (l : Option L) (k : Nat) (p : P) (threw : Bool) : List (Ev L P) :=
  match l with
  | none => []
  | some l => [.afterCreate l k p threw]

/-- `onBeforeDestroy`, if there is a listener. -/
def beforeDestroyed (l : Option L) (k : Nat) : List (Ev L P) :=
  match l with
  | none => []
  | some l => [.beforeDestroy l k]

/-- A connection handed to the handler: the listener installed at that moment, the connection, the parameters, and whether `onAfterCreate` throws
(the constructor, if there is no listener). -/
structure Accepted (L P : Type) where
  listener : Option L
  connection : Nat
  params : P
  throws : Bool

/-- The possible whole histories of socket `k` in a threaded server: `onAfterCreate` threw and nothing more; or it was created, perhaps listened to (once, from
beginning to end), and destroyed. -/
inductive Whole (a : Accepted L P) (k : Nat) : List (Ev L P) → Prop where
  | threw (l : L) (hl : a.listener = some l) (ht : a.throws = true) : Whole a k [.afterCreate l k a.params true]
  | notStarted : Whole a k (afterCreated a.listener k a.params false ++ beforeDestroyed a.listener k)
  | listened : Whole a k (afterCreated a.listener k a.params false ++ [.listenBegin k, .listenEnd k] ++ beforeDestroyed a.listener k)

/-! ## The async server -/

/-- A connection handed to the async handler: the listener installed at that moment, the connection, the parameters. -/
structure Handed (L P : Type) where
  listener : Option L
  connection : Nat
  params : P

/-- What has happened to socket `k` of the connection `a`: `onAfterCreate_NonBlocking` (which may throw), `listenAsync` begun unless it threw, `listenAsync` ended if
`ended`, and `onBeforeDestroy_NonBlocking` if `destroyed`. -/
def asyncLife (a : Handed L P) (k : Nat) (throws ended destroyed : Bool) : List (Ev L P) :=
  afterCreated a.listener k a.params throws ++ (if throws then [] else [.listenBegin k]) ++ (if ended then [.listenEnd k] else []) ++
    (if destroyed then beforeDestroyed a.listener k else [])

end OatWS.Server
