/-!
# Mutexes, threads and the memory of lockspaces

The threads of the daemon and the mutexes they take: `spaces_mutex`, the mutex of each lockspace,
the mutex of each client, `resource_mutex`, the mutex of the thread pool, of the log and of the
random numbers (all uses in `src/lockspace.c`, `src/main.c`, `src/cmd.c`, `src/resource.c`,
`src/log.c`), together with the life of the memory of a lockspace (`struct space`, rules in the
comment `src/lockspace.c:1972-2045`).

A thread runs a program, which is what one function of the code does with mutexes, with lockspaces
and with the socket of a client.  Everything else the function does is left out.  Between two
programs the thread holds no mutex and no pointer to a lockspace.  A function that is called with
nothing held is a program of its own, so that one command of a client is a sequence of programs;
the model allows any sequence.

Any number of worker threads, clients and lockspaces; one instruction of one thread at a time, in
any order.
-/

namespace Sanlock.Locks

/-- The threads: the main thread; the workers of the thread pool (`src/main.c:940-975`); the
resource thread (`src/resource.c:2457-2568`); the thread that writes the log
(`src/log.c:262-298`); the thread of lockspace `i` (`src/lockspace.c:760-1062`). -/
inductive Thr
  | main
  | worker (k : Nat)
  | resource
  | logger
  | ls (i : Nat)
  deriving DecidableEq, Repr

/-- The mutexes: `spaces_mutex`, `sp->mutex` of lockspace `i`, `cl->mutex` of client `c`,
`resource_mutex`, `pool.mutex` (`src/main.c:69`), `log_mutex` (`src/log.c:36`), `rand_mutex`
(`src/main.c:89`). -/
inductive Lock
  | spaces
  | sp (i : Nat)
  | cl (c : Nat)
  | res
  | pool
  | log
  | rand
  deriving DecidableEq, Repr

/-- the three lists of lockspaces: `spaces_add`, `spaces`, `spaces_rem` -/
inductive Lst
  | add
  | on
  | rem
  deriving DecidableEq, Repr

/-- The memory of lockspace `i`: not allocated yet; allocated and on no list; on a list; taken off
its list; freed.  A number is used for one allocation only. -/
inductive St
  | none
  | priv
  | listed (q : Lst)
  | off
  | freed
  deriving DecidableEq, Repr

/-- a thread that was not created yet, that runs, that has ended -/
inductive Life
  | none
  | alive
  | ended
  deriving DecidableEq, Repr

/-- What a function does.
* `acq`, `rel`: `pthread_mutex_lock`, `pthread_mutex_unlock`
* `use i`: any access to the memory of lockspace `i`
* `link i`: `list_add` on `spaces_add`; `move i`: from `spaces_add` to `spaces`; `remove i`: from
  `spaces` to `spaces_rem`; `unlink i`: `list_del`
* `free i`: `free_sp`
* `start i`: `pthread_create` of the thread of lockspace `i`
* `quit t`: tell thread `t` to end, or `t` itself decides to end
* `join t`: `pthread_join`
* `io c`: a `send` or `recv` on the socket of client `c` that waits -/
inductive Op
  | acq (l : Lock)
  | rel (l : Lock)
  | use (i : Nat)
  | link (i : Nat)
  | move (i : Nat)
  | remove (i : Nat)
  | unlink (i : Nat)
  | free (i : Nat)
  | start (i : Nat)
  | quit (t : Thr)
  | join (t : Thr)
  | io (c : Nat)
  deriving DecidableEq, Repr

/-- A question the code asks: is lockspace `i` on list `q` (`_search_space`, `find_lockspace`, the
loops over a list); is thread `t` about to end (`lease_status.acquire_last_result` is an error,
`src/lockspace.c:1200-1211`); `alloc i`: allocate the memory of lockspace `i`, answer no when the
number was used already. -/
inductive Test
  | onList (q : Lst) (i : Nat)
  | quits (t : Thr)
  | alloc (i : Nat)
  deriving DecidableEq, Repr

/-- The program of a function. -/
inductive Prog
  | ret
  | op (o : Op) (k : Prog)
  | test (t : Test) (yes no : Prog)
  deriving DecidableEq, Repr

/-- one program after another -/
def Prog.seq : Prog → Prog → Prog
  | .ret, q => q
  | .op o k, q => .op o (k.seq q)
  | .test t y n, q => .test t (y.seq q) (n.seq q)

instance : Append Prog := ⟨Prog.seq⟩

/-- one instruction -/
def one (o : Op) : Prog := .op o .ret

/-- a loop: the program of each element -/
def each {α : Type} (f : α → Prog) : List α → Prog
  | [] => .ret
  | x :: xs => f x ++ each f xs

/-- `n` times the same program -/
def times (p : Prog) : Nat → Prog
  | 0 => .ret
  | n + 1 => p ++ times p n

/-- `p` between lock and unlock of `l` -/
def sec (l : Lock) (p : Prog) : Prog := one (.acq l) ++ (p ++ one (.rel l))

/-- what is done with lockspace `i` when it is found on list `q` -/
def found (q : Lst) (i : Nat) (p : Prog) : Prog := .test (.onList q i) p .ret

structure State where
  /-- what the thread has still to do -/
  rest : Thr → Prog
  /-- the thread that holds the mutex -/
  owner : Lock → Option Thr
  st : Nat → St
  life : Thr → Life
  /-- the thread was told to end -/
  quit : Thr → Bool
  /-- the client reads what is sent to it, and sends what it announced -/
  ready : Nat → Bool
  /-- undefined behaviour happened: a lockspace was used before it was allocated or after it was
  freed, freed twice or while its thread ran, moved between lists it was not on or without
  `spaces_mutex`; a mutex was unlocked by a thread that did not hold it; a thread that was never
  created was joined; the thread of a lockspace was created twice -/
  bad : Bool

/-- The daemon after its start: all threads but those of lockspaces run, no lockspace. -/
def init : State where
  rest _ := .ret
  owner _ := Option.none
  st _ := .none
  life t := match t with
    | .ls _ => .none
    | _ => .alive
  quit _ := false
  ready _ := true
  bad := false

/-- replace the value at one place -/
def upd {α β : Type} [DecidableEq α] (f : α → β) (a : α) (b : β) : α → β :=
  fun x => if x = a then b else f x

/-- the memory of lockspace `i` may be used -/
def St.usable : St → Bool
  | .none => false
  | .freed => false
  | _ => true

/-- the memory in which the mutex is -/
def lockOk (s : State) : Lock → Bool
  | .sp i => (s.st i).usable
  | _ => true

/-- a change of the lists by thread `th`: lockspace `i` is expected in state `a` and gets state `b` -/
def relist (s : State) (th : Thr) (i : Nat) (a b : St) : State :=
  { s with
    st := upd s.st i b
    bad := s.bad || !(decide (s.st i = a) && decide (s.owner .spaces = some th)) }

/-- Effect of one instruction of thread `th`; `none`: the thread has to wait.
A mutex is taken when nobody holds it, a thread is joined when it has ended, a socket is used when
the client is ready. -/
def exec (s : State) (th : Thr) : Op → Option State
  | .acq l =>
    if s.owner l = Option.none then
      some { s with owner := upd s.owner l (some th), bad := s.bad || !lockOk s l }
    else Option.none
  | .rel l =>
    some { s with
      owner := upd s.owner l Option.none
      bad := s.bad || !(lockOk s l && decide (s.owner l = some th)) }
  | .use i => some { s with bad := s.bad || !(s.st i).usable }
  | .link i => some (relist s th i .priv (.listed .add))
  | .move i => some (relist s th i (.listed .add) (.listed .on))
  | .remove i => some (relist s th i (.listed .on) (.listed .rem))
  | .unlink i =>
    some (relist s th i (if s.st i = .listed .rem then .listed .rem else .listed .add) .off)
  | .free i =>
    some { s with
      st := upd s.st i .freed
      bad := s.bad || !((decide (s.st i = .priv) || decide (s.st i = .off)) &&
        decide (s.life (.ls i) ≠ .alive) && decide (s.owner (.sp i) = Option.none)) }
  | .start i =>
    some { s with
      life := upd s.life (.ls i) .alive
      bad := s.bad || !(decide (s.life (.ls i) = .none) && (s.st i).usable) }
  | .quit t => some { s with quit := upd s.quit t true }
  | .join t =>
    if s.life t = .none then some { s with bad := true }
    else if s.life t = .ended then some s
    else Option.none
  | .io c => if s.ready c then some s else Option.none

/-- the answer to a question, and its effect -/
def ask (s : State) : Test → Bool × State
  | .onList q i => (decide (s.st i = .listed q), s)
  | .quits t => (s.quit t, s)
  | .alloc i =>
    if s.st i = .none then (true, { s with st := upd s.st i .priv }) else (false, s)

/-! ### The programs of the code -/

/-- a message to the log (`log_level`, `src/log.c:150-222`) -/
def lg : Prog := sec .log .ret

/-- a message about lockspace `i`, whose number is read for it (`log_space`, `log_erros`) -/
def lgs (i : Nat) : Prog := one (.use i) ++ lg

/-- a random number (`get_rand`, `src/main.c:1464-1474`) -/
def rnd : Prog := sec .rand .ret

/-- `client_suspend`, `client_resume`, `client_free`, `client_add` (`src/main.c:291-420`), the
sections of `cmd_acquire`, `cmd_release`, `cmd_inquire`, `cmd_convert`, `cmd_killpath` on their
client (`src/cmd.c:229-266, 599-756, 788-871, 942-969, 2013-2016`) -/
def onClient (c : Nat) : Prog := sec (.cl c) lg

/-- the sections of `src/resource.c` on `resource_mutex`, with messages in them (`145-155`,
`707-768`, `957-965`, `1116-1134`, `1162-1241`, `1550-1570`, `1653-1798`, `1984-1986`, `2130-2138`,
`2191-2204`, `2363-2374`, `2433-2440`, `2474-2558`, `2574-2592`, `2600-2611`, `2632-2637`,
`2659-2664`) -/
def onRes : Prog := sec .res lg

/-- `client_pid_dead` with `n` leases of the client (`src/main.c:487-554`) -/
def pidDead (c n : Nat) : Prog :=
  onClient c ++ lg ++ sec (.cl c) (times onRes n)

/-- look at every client (`all_pids_dead` and the loop of `kill_pids`, `src/main.c:625-734`) -/
def clients (cs : List Nat) : Prog := each (fun c => sec (.cl c) lg) cs

/-- `kill_pids` (`src/main.c:597-692`) -/
def killPids (i : Nat) (cs : List Nat) : Prog :=
  one (.use i) ++ sec (.sp i) (one (.use i)) ++ clients cs

/-- `all_pids_dead` (`src/main.c:694-760`), the count of orphans included -/
def allDead (i : Nat) (cs : List Nat) : Prog := clients cs ++ one (.use i) ++ onRes ++ lgs i

/-- What the main loop finds about a lockspace of the list `spaces` (`src/main.c:850-905`): all
processes are gone; some are left; the lease is not renewed or the lockspace is to be removed; the
lease is fine, `n` other hosts have sent something. -/
inductive Finding
  | gone (cs : List Nat)
  | killing (cs ds : List Nat)
  | lost (cs : List Nat)
  | fine (n : Nat)

/-- the body of the loop over `spaces` (`src/main.c:850-905`), `check_our_lease`
(`src/lockspace.c:535-597`) and `check_other_leases` (`378-530`) -/
def checkOne : Nat × Finding → Prog
  | (i, .gone cs) =>
    found .on i (one (.use i) ++ allDead i cs ++ lgs i ++
      sec (.sp i) (one (.use i) ++ one (.quit (.ls i))) ++ one (.remove i))
  | (i, .killing cs ds) => found .on i (one (.use i) ++ allDead i cs ++ killPids i ds)
  | (i, .lost cs) =>
    found .on i (one (.use i) ++ sec (.sp i) (one (.use i)) ++ lgs i ++ killPids i cs)
  | (i, .fine n) =>
    found .on i (one (.use i) ++ sec (.sp i) (one (.use i)) ++ lgs i ++ times (lgs i ++ onRes) n)

/-- the check of all lockspaces, once a second (`src/main.c:849-908`) -/
def checkAll (xs : List (Nat × Finding)) : Prog := sec .spaces (each checkOne xs)

/-- `free_lockspaces` with `stop_lockspace_thread` (`src/lockspace.c:1949-1971, 2047-2062`); the
thread of the lockspace has ended (`true`, with `wait` the join waits for this), or not -/
def freeOne : Nat × Bool → Prog
  | (i, true) =>
    found .rem i (sec (.sp i) (one (.use i) ++ one (.quit (.ls i))) ++ one (.join (.ls i)) ++
      lgs i ++ one (.unlink i) ++ one (.free i))
  | (i, false) => found .rem i (sec (.sp i) (one (.use i) ++ one (.quit (.ls i))))

def freeSpaces (xs : List (Nat × Bool)) : Prog := sec .spaces (each freeOne xs)

/-- `thread_pool_add_work` (`src/main.c:978-1007`) -/
def addWork : Prog := sec .pool lg

/-- `process_cmd_thread_registered` (`src/main.c:1097-1231`): the search for the client, the check
of the client, the work is handed on; `client_recv_all` does not wait. -/
def registered (cs : List Nat) (c from_ : Nat) (fail : Bool) : Prog :=
  each (fun d => sec (.cl d) .ret) cs ++ sec (.cl c) lg ++ addWork ++
    (if fail then sec (.cl c) .ret ++ lg ++ one (.io from_) ++ onClient from_ else .ret)

/-- lookups: lockspace `i` of list `q` is looked at in one section of `spaces_mutex`.
`lockspace_info`, `lockspace_disk`, `host_info` (`src/lockspace.c:198-229, 294-327`),
`add_lockspace_start`'s search, `inq_lockspace`, `rem_lockspace_start`, a round of
`rem_lockspace_wait` (`1259-1370`), `get_lockspaces`, `get_hosts` (`1372-1598`),
`lockspace_begin_rindex_op`, `lockspace_clear_rindex_op` (`1649-1696`), `cmd_host_status`,
`cmd_renewal` (`src/cmd.c:2736-2741, 2800-2817`), the shutdown command (`3083-3092`) -/
def lookup (qs : List (Lst × Nat)) : Prog :=
  sec .spaces (each (fun x => found x.1 x.2 (one (.use x.2) ++ lg)) qs)

/-- the end of `cmd_acquire` (`src/cmd.c:500-531`), `check_new_tokens_space` included -/
def acquireEnd (c : Nat) (is : List Nat) : Prog :=
  sec .spaces (sec (.cl c) (lg ++ each (fun i => found .on i (one (.use i))) is ++ lg))

/-- `cmd_status` (`src/cmd.c:2650-2712`), `send_state_resources` (`src/resource.c:138-156`): what is
known of each lockspace and of `n` leases is sent with the mutex held -/
def status (c : Nat) (qs : List (Lst × Nat)) (n : Nat) : Prog :=
  one (.io c) ++
  sec .spaces (each (fun x => found x.1 x.2 (one (.use x.2) ++ one (.io c))) qs) ++
  sec .res (times (one (.io c)) n)

/-- find lockspace `i` of the list `spaces`, unlock, then use it: the start of
`lockspace_set_config`, `lockspace_end_event`, `lockspace_reg_event`, `lockspace_set_event`,
`send_event_callbacks`, `host_status_set_bit` -/
def findThen (i : Nat) (p : Prog) : Prog :=
  one (.acq .spaces) ++ .test (.onList .on i) (one (.rel .spaces) ++ p) (one (.rel .spaces))

/-- `_clean_event_fds` (`src/lockspace.c:1698-1733`); its `recv` does not wait -/
def cleanFds (i : Nat) : Prog := sec (.sp i) (one (.use i) ++ lg)

/-- `lockspace_set_config` (`src/lockspace.c:1600-1647`) -/
def setConfig (i : Nat) : Prog := findThen i (sec (.sp i) (one (.use i)))

/-- `lockspace_end_event` (`src/lockspace.c:1742-1756`) -/
def endEvent (i : Nat) : Prog := findThen i (cleanFds i)

/-- `lockspace_reg_event` (`src/lockspace.c:1758-1805`), with a second round when all places were
taken -/
def regEvent (i : Nat) (again : Bool) : Prog :=
  findThen i (sec (.sp i) (one (.use i)) ++ lgs i ++
    (if again then cleanFds i ++ sec (.sp i) (one (.use i)) ++ lgs i else .ret))

/-- `lockspace_set_event` (`src/lockspace.c:1807-1886`) -/
def setEvent (i : Nat) : Prog :=
  findThen i (one (.use i) ++ lg ++ sec (.sp i) (one (.use i) ++ lg))

/-- `host_status_set_bit` (`src/lockspace.c:265-292`) -/
def setBit (i : Nat) : Prog := findThen i (one (.use i) ++ sec (.sp i) (one (.use i)))

/-- `send_event_callbacks` (`src/lockspace.c:1888-1938`); its `send` does not wait -/
def callbacks (i : Nat) : Prog := findThen i (sec (.sp i) (one (.use i) ++ lg))

/-- How `sanlock_add_lockspace` goes on: there is such a lockspace already; the thread cannot be
created; otherwise the result of the thread is looked at `n` times and the lockspace is then to be
removed again or not. -/
inductive Adding
  | exists_
  | noThread
  | waited (n : Nat) (undo : Bool)

/-- the end of a failed add: off the list, freed (`src/lockspace.c:1187-1192, 1250-1255`) -/
def addFail (i : Nat) : Prog := sec .spaces (one (.unlink i)) ++ one (.free i)

/-- `add_lockspace_start` and `add_lockspace_wait` (`src/lockspace.c:1064-1257`); `qs` are the
lockspaces the search meets -/
def addSpace (i : Nat) (qs : List (Lst × Nat)) (a : Adding) : Prog :=
  .test (.alloc i)
    (one (.use i) ++
      match a with
      | .exists_ => lookup qs ++ one (.free i)
      | .noThread =>
        sec .spaces (each (fun x => found x.1 x.2 (one (.use x.2) ++ lg)) qs ++ one (.link i)) ++
          lgs i ++ addFail i
      | .waited n undo =>
        sec .spaces (each (fun x => found x.1 x.2 (one (.use x.2) ++ lg)) qs ++ one (.link i)) ++
          lgs i ++ one (.start i) ++ times (sec (.sp i) (one (.use i))) n ++
          .test (.quits (.ls i))
            (one (.join (.ls i)) ++ lgs i ++ addFail i)
            (if undo then
              sec .spaces (one (.use i)) ++ lgs i ++
                sec (.sp i) (one (.use i) ++ one (.quit (.ls i))) ++ one (.join (.ls i)) ++
                lgs i ++ addFail i
             else sec .spaces (one (.use i) ++ one (.move i) ++ lgs i)))
    .ret

/-- a step of the thread of lockspace `i`: its state is read or written under its mutex
(`src/lockspace.c:339-359, 612-620, 896-989`), messages -/
def lsStep (i : Nat) : Prog := one (.use i) ++ sec (.sp i) (one (.use i) ++ lg) ++ lgs i

/-- the host id was not acquired: the thread reports it and ends (`src/lockspace.c:895-910`) -/
def lsFail (i : Nat) : Prog := sec (.sp i) (one (.use i) ++ one (.quit (.ls i)))

/-- the end of the thread: orphans of the lockspace are dropped (`src/lockspace.c:1050-1056`,
`src/resource.c:2595-2622`) -/
def lsEnd (i : Nat) : Prog := one (.use i) ++ onRes ++ onRes ++ sec (.sp i) (one (.use i))

/-- The end of the daemon with `ks` workers: `thread_pool_free`, `close_token_manager`,
`close_logging` (`src/main.c:1009-1018`, `src/resource.c:2657-2666`, `src/log.c:328-346`).  The
wait for the last worker is written as a join of each. -/
def stopAll (ks : List Nat) : Prog :=
  sec .pool (each (fun k => one (.quit (.worker k))) ks) ++
  each (fun k => one (.join (.worker k))) ks ++
  sec .res (one (.quit .resource)) ++ one (.join .resource) ++
  sec .log (one (.quit .logger)) ++ one (.join .logger) ++ lg

/-- Programs of each thread that follow the rules of `src/lockspace.c:1972-2045`.  `strict` leaves
out the one that waits for a client with a mutex held. -/
inductive Safe (strict : Bool) : Thr → Prog → Prop
  | log (t) : Safe strict t lg
  | rnd (t) : Safe strict t rnd
  | client (t) (c : Nat) (h : t ≠ .logger) : Safe strict t (onClient c)
  | res (t) (h : t ≠ .logger) : Safe strict t onRes
  | pidDead (c n) : Safe strict .main (pidDead c n)
  | checkAll (xs) : Safe strict .main (checkAll xs)
  | freeSpaces (xs) : Safe strict .main (freeSpaces xs)
  | addWork : Safe strict .main addWork
  | registered (cs c d fail) : Safe strict .main (registered cs c d fail)
  | mainLookup (qs) : Safe strict .main (lookup qs)
  | mainIo (c) : Safe strict .main (one (.io c))
  | status (c qs n) (h : strict = false) : Safe strict .main (status c qs n)
  | setConfig (i) : Safe strict .main (setConfig i)
  | endEvent (i) : Safe strict .main (endEvent i)
  | regEvent (i a) : Safe strict .main (regEvent i a)
  | stopAll (ks) : Safe strict .main (stopAll ks)
  | lookup (k qs) : Safe strict (.worker k) (lookup qs)
  | io (k c) : Safe strict (.worker k) (one (.io c))
  | acquireEnd (k c is) : Safe strict (.worker k) (acquireEnd c is)
  | addSpace (k i qs a) : Safe strict (.worker k) (addSpace i qs a)
  | resLookup (qs) : Safe strict .resource (Locks.lookup qs)
  | lsStep (i) : Safe strict (.ls i) (lsStep i)
  | lsFail (i) : Safe strict (.ls i) (lsFail i)
  | lsEnd (i) : Safe strict (.ls i) (lsEnd i)

/-- All programs of each thread: `cmd_set_event`, `cmd_request` (workers, `src/cmd.c:1083, 2052`)
and the events of other hosts (resource thread, `src/resource.c:2481-2490`) use a lockspace after
`spaces_mutex` was unlocked. -/
inductive Code : Thr → Prog → Prop
  | safe {t p} (h : Safe false t p) : Code t p
  | setEvent (k i) : Code (.worker k) (setEvent i)
  | setBit (k i) : Code (.worker k) (setBit i)
  | callbacks (i) : Code .resource (callbacks i)

/-! ### Executions -/

/-- What happens next: a thread with nothing to do starts a program; a thread executes an
instruction; a thread that was told to end and has nothing to do ends; a client becomes ready or
stops being ready. -/
inductive Act
  | call (t : Thr) (p : Prog)
  | op (t : Thr)
  | fin (t : Thr)
  | client (c : Nat) (b : Bool)

/-- one step; `none`: it is not possible now -/
def step (s : State) : Act → Option State
  | .call t p =>
    if s.life t = .alive ∧ s.rest t = .ret then some { s with rest := upd s.rest t p }
    else Option.none
  | .op t =>
    match s.rest t with
    | .ret => Option.none
    | .op o k => (exec s t o).map fun s' => { s' with rest := upd s.rest t k }
    | .test q y n =>
      some { (ask s q).2 with rest := upd s.rest t (if (ask s q).1 then y else n) }
  | .fin t =>
    if s.life t = .alive ∧ s.rest t = .ret ∧ s.quit t = true then
      some { s with life := upd s.life t .ended }
    else Option.none
  | .client c b => some { s with ready := upd s.ready c b }

/-- a sequence of steps -/
def run (s : State) : List Act → Option State
  | [] => some s
  | a :: as => (step s a).bind fun s' => run s' as

/-- the programs that are started are programs of `P` -/
def Act.from_ (P : Thr → Prog → Prop) : Act → Prop
  | .call t p => P t p
  | _ => True

/-- the states of the daemon when its threads run programs of `P` -/
def Reach (P : Thr → Prog → Prop) (s : State) : Prop :=
  ∃ as : List Act, (∀ a ∈ as, a.from_ P) ∧ run init as = some s

end Sanlock.Locks
