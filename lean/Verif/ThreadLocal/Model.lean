/- Thread local storage: `thread/m_thread_tls.c`, under every schedule. -/
namespace Verif.ThreadLocal

/-- The range of `M_uint64`. -/
def W : Nat := 2 ^ 64

/-- `M_thread_tls_value`, `thread/m_thread_tls.c:54-57`: the destructor (`none` is the null pointer) and the value (0 is the null
pointer). -/
structure TVal where
  destr : Option Nat
  val : Nat
deriving DecidableEq, Repr

/-- A table of one thread, `thread/m_thread_tls.c:175`: from keys to values. -/
abbrev Store := List (Nat × TVal)

/-- `M_hash_u64vp_get_direct` in such a table. -/
def slook (st : Store) (k : Nat) : Option TVal := (st.find? fun p => decide (p.1 = k)).map (·.2)

/-- `M_hash_u64vp_remove`, without the destructor. -/
def sdel (st : Store) (k : Nat) : Store := st.filter fun p => decide (p.1 ≠ k)

/-- `M_hash_u64vp_insert`, without the destructor of the value that is replaced. -/
def sins (st : Store) (k : Nat) (v : TVal) : Store := (k, v) :: sdel st k

/-- The calls of a thread; the last one is made by the thread system when the thread ends. -/
inductive Call
  | create (destr : Option Nat)
  | set (key val : Nat)
  | get (key : Nat)
  | purge
deriving DecidableEq, Repr

/-- Where a thread is inside a call. -/
inductive Pc
  | idle
  /-- `thread/m_thread_tls.c:151`: the number is drawn, the key is not in the table. -/
  | create2 (destr : Option Nat) (id : Nat)
  /-- `thread/m_thread_tls.c:180`: the lock is released again. -/
  | set2 (key val : Nat) (destr : Option Nat)
  /-- `thread/m_thread_tls.c:186` -/
  | set3 (key val : Nat) (destr : Option Nat)
  /-- `thread/m_thread_tls.c:204` -/
  | get2 (key : Nat)
  /-- `thread/m_thread_tls.c:124` -/
  | purge2
  /-- `thread/m_thread_tls.c:134`, with the keys that are left. -/
  | purge3 (keys : List Nat)
deriving DecidableEq, Repr

/-- What can be seen from outside: calls that return, and destructors that run, with or without the lock of the library. -/
inductive Ev
  | created (t id : Nat) (destr : Option Nat)
  | wasSet (t key val : Nat) (ok : Bool)
  | got (t key val : Nat)
  | purged (t : Nat)
  | destroyed (t key destr val : Nat) (locked : Bool)
deriving DecidableEq, Repr

/-- The globals of `thread/m_thread_tls.c:47-50`, the places of the threads, and what happened so far.  The pointer to its table that
a thread holds between two steps is the entry of the pool under its number: nobody else removes this entry. -/
structure S where
  keyId : Nat
  keys : List (Nat × Option Nat)
  pool : Nat → Option Store
  pc : Nat → Pc
  log : List Ev

/-- `thread/m_thread_tls.c:47-50`, `:78-83`. -/
def init : S := ⟨0, [], fun _ => none, fun _ => .idle, []⟩

/-- `M_hash_u64vp_get` in the table of the keys. -/
def klook (ks : List (Nat × Option Nat)) (k : Nat) : Option (Option Nat) := (ks.find? fun p => decide (p.1 = k)).map (·.2)

/-- `thread/m_thread_tls.c:66-72`, `M_thread_tls_destroy_thread_key`. -/
def destroyVal (t key : Nat) (locked : Bool) (v : TVal) : List Ev :=
  match v.destr with
  | some d => [.destroyed t key d v.val locked]
  | none => []

/-- The destructor of the entry of a key, if there is one, as `M_hash_u64vp_remove` and `M_hash_u64vp_insert` run it. -/
def destroyAt (t key : Nat) (st : Store) : List Ev :=
  match slook st key with
  | some v => destroyVal t key false v
  | none => []

/-- Another entry of the pool. -/
def setPool (s : S) (t : Nat) (st : Option Store) : S := { s with pool := fun u => if u = t then st else s.pool u }

/-- Another place of a thread. -/
def goto (s : S) (t : Nat) (p : Pc) : S := { s with pc := fun u => if u = t then p else s.pc u }

/-- More that happened. -/
def say (s : S) (l : List Ev) : S := { s with log := s.log ++ l }

/-- One step of a thread.  What is done under the lock is one step, since every other access to the keys and to the pool takes the
lock, too; so is every access to the table of the thread itself.  An idle thread begins the call it is asked to.  Destructors that
call these functions are not modelled. -/
def step (s : S) (t : Nat) (c : Call) : S :=
  match s.pc t with
  | .idle =>
    match c with
    -- `thread/m_thread_tls.c:150`
    | .create d => goto { s with keyId := (s.keyId + 1) % W } t (.create2 d ((s.keyId + 1) % W))
    -- `thread/m_thread_tls.c:164-178`
    | .set key val =>
      match klook s.keys key with
      | none => say s [.wasSet t key val false]
      | some d =>
        match s.pool t with
        | none => goto (setPool s t (some [])) t (.set2 key val d)
        | some _ => goto s t (.set2 key val d)
    -- `thread/m_thread_tls.c:200-205`
    | .get key =>
      match s.pool t with
      | none => say s [.got t key 0]
      | some _ => goto s t (.get2 key)
    -- `thread/m_thread_tls.c:110-116`
    | .purge =>
      match s.pool t with
      | none => say s [.purged t]
      | some _ => goto s t .purge2
  -- `thread/m_thread_tls.c:151-155`
  | .create2 d id => say (goto { s with keys := (id, d) :: s.keys } t .idle) [.created t id d]
  -- `thread/m_thread_tls.c:181-182`
  | .set2 key val d =>
    let st := (s.pool t).getD []
    if val = 0 then say (goto (setPool s t (some (sdel st key))) t (.set3 key val d)) (destroyAt t key st)
    else goto s t (.set3 key val d)
  -- `thread/m_thread_tls.c:186-191`
  | .set3 key val d =>
    let st := (s.pool t).getD []
    say (goto (setPool s t (some (sins st key ⟨d, val⟩))) t .idle) (destroyAt t key st ++ [.wasSet t key val true])
  -- `thread/m_thread_tls.c:207-211`
  | .get2 key => say (goto s t .idle) [.got t key (((slook ((s.pool t).getD []) key).map (·.val)).getD 0)]
  -- `thread/m_thread_tls.c:124-129`
  | .purge2 => goto s t (.purge3 (((s.pool t).getD []).map (·.1)))
  -- `thread/m_thread_tls.c:134-136`
  | .purge3 (k :: ks) =>
    let st := (s.pool t).getD []
    say (goto (setPool s t (some (sdel st k))) t (.purge3 ks)) (destroyAt t k st)
  -- `thread/m_thread_tls.c:140-142`, with `M_thread_tls_destroy_store`, `:61-64`
  | .purge3 [] =>
    let st := (s.pool t).getD []
    say (goto (setPool s t none) t .idle) (st.flatMap (fun p => destroyVal t p.1 true p.2) ++ [.purged t])

/-- A schedule: which thread makes a step, and the call it makes if it is idle. -/
def exec (l : List (Nat × Call)) : S := l.foldl (fun s p => step s p.1 p.2) init

end Verif.ThreadLocal
