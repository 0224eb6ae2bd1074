/-!
# File descriptors of the daemon

Models which file descriptors the threads of the daemon open, use and close: `open_disk`, `open_disks`, `open_disks_fd`,
`close_disks` (`src/diskio.c:194-373`) and every function of the daemon that calls them, the thread of a lockspace with its
connection to wdmd (`src/lockspace.c:749-1043`, `src/watchdog.c:75-182`), the sysfs files it reads and writes
(`src/diskio.c:34-83`), and the connections of the clients (`src/main.c:1359-1371`, 213-287).

A function is a tree (`Prog`) of the system calls it makes.  Where the code decides by something else (a record that was read,
an error of the disk, a flag of the caller) both ways are in the tree (`alt`).  Loops are unrolled any number of times `k`.
The descriptor variables of a call are numbers; a function that hands its disks to another one (`struct token`) shares them.

The kernel gives out the lowest free descriptor.  An open may fail at any time and does fail when `lim` descriptors are used.

Not modelled: what blkid opens and closes inside `set_disk_properties`, the descriptors for events of a lockspace
(`lockspace_reg_event`), the pipes of the helper, the log file, `shutdown_reply_fd`, and descriptors that the commands of the tool open.
-/

namespace Sanlock.Descr

/-- `f` with `v` at `i`. -/
def set {β} (f : Nat → β) (i : Nat) (v : β) : Nat → β := fun j => if j = i then v else f j

@[grind =] theorem set_apply {β} (f : Nat → β) (i v j) : set f i v j = if j = i then v else f j := rfl

/-- What makes a function take a way out that loses or confuses descriptors. -/
inductive Event where
  /-- wdmd cannot open the watchdog (`src/lockspace.c:851-859`) -/
  | wdFails
  /-- the flags of a request do not go together (`src/rindex.c:397-399`) -/
  | badSizes
  /-- there is no slot for a new client (`src/main.c:1370`) -/
  | noSlot
deriving DecidableEq, Repr

/-- The system calls of a function.  `v` are variables, `f` is the file that is meant. -/
inductive Prog where
  /-- the end of the call -/
  | ret (ok : Bool)
  /-- `v = open(f)` -/
  | open (v f : Nat) (ok err : Prog)
  /-- I/O through `v`, meant for `f` -/
  | io (v f : Nat) (next : Prog)
  /-- one disk of `close_disks` (`src/diskio.c:198-203`): closed and set to -1 unless it is -1 -/
  | closeDisk (v : Nat) (next : Prog)
  /-- `close(v)`; the variable keeps its value -/
  | close (v : Nat) (next : Prog)
  /-- `w = v`; `v` is not used afterwards -/
  | move (v w : Nat) (next : Prog)
  /-- `if (v != -1) yes else no` -/
  | ifSet (v : Nat) (yes no : Prog)
  /-- both ways are possible -/
  | alt (a b : Prog)
  /-- `yes` if the event occurs, `no` otherwise -/
  | fault (e : Event) (yes no : Prog)

/-- An open file: the call that opened it (0 is the daemon itself) and what it is. -/
structure Ent where
  tid : Nat
  file : Nat
deriving DecidableEq, Repr

/-! ## The functions -/

/-- `majority_disks` (`src/diskio.c:206-226`). -/
def majority (n num : Nat) : Bool :=
  if n = 1 ∧ num = 0 then false
  else if n % 2 = 1 then decide (num ≥ n / 2 + 1)
  else decide (num > n / 2)

/-- The disks of a token, numbered: pairs of variable and file. -/
def number : Nat → List Nat → List (Nat × Nat)
  | _, [] => []
  | i, f :: fs => (i, f) :: number (i + 1) fs

/-- `close_disks` (`src/diskio.c:194-204`). -/
def closeDisks : List (Nat × Nat) → Prog → Prog
  | [], p => p
  | d :: ds, p => .closeDisk d.1 (closeDisks ds p)

/-- I/O on all disks of a token. -/
def ioDisks : List (Nat × Nat) → Prog → Prog
  | [], p => p
  | d :: ds, p => .io d.1 d.2 (ioDisks ds p)

/-- The loop of `open_disks` and `open_disks_fd` (`src/diskio.c:233-262`, 331-366) with `num` disks opened so far. -/
def openLoop (n : Nat) (ok fail : Prog) : List (Nat × Nat) → Nat → Prog
  | [], num => if majority n num then ok else fail
  | d :: ds, num => .ifSet d.1 fail (.open d.1 d.2 (openLoop n ok fail ds (num + 1)) (openLoop n ok fail ds num))

/-- `open_disks` and `open_disks_fd` (`src/diskio.c:233-274`, 331-373). -/
def openDisks (ds : List (Nat × Nat)) (ok fail : Prog) : Prog :=
  openLoop ds.length ok (closeDisks ds fail) ds 0

/-- The end of `paxos_lease_acquire` (`src/paxos_lease.c:2186-2188`): `o` is `disk_open`. -/
def leaseOut (h : Nat × Nat) (o : Bool) (p : Prog) : Prog := if o then closeDisks [h] p else p

/-- The ballot and the commit of `paxos_lease_acquire` (`src/paxos_lease.c:1971-2184`); `again` is `restart`. -/
def leaseRun (ds : List (Nat × Nat)) (h : Nat × Nat) (o : Bool) (ok err again : Prog) : Prog :=
  ioDisks ds (.alt (leaseOut h o ok) (.alt (leaseOut h o err) again))

/-- The loop that watches the owner (`src/paxos_lease.c:1814-1969`); a pass that sees no change goes on as `restart` does. -/
def leaseWait (ds : List (Nat × Nat)) (h : Nat × Nat) (ok err again : Prog) : Prog :=
  .io h.1 h.2 (.alt (leaseOut h true err) (.alt (leaseRun ds h true ok err again)
    (ioDisks ds (.alt (leaseOut h true err) again))))

/-- `paxos_lease_acquire` (`src/paxos_lease.c:1647-2191`) with at most `k` passes through `restart`; `h` is `host_id_disk`. -/
def acquireLease (ds : List (Nat × Nat)) (h : Nat × Nat) (ok err : Prog) : Nat → Bool → Prog
  | 0, o => leaseOut h o err
  | k + 1, o =>
    ioDisks ds (.alt (leaseOut h o err) (.alt (leaseRun ds h o ok err (acquireLease ds h ok err k o))
      (if o then leaseWait ds h ok err (acquireLease ds h ok err k true)
       else .alt err (openDisks [h] (leaseWait ds h ok err (acquireLease ds h ok err k true)) err))))

/-- `_release_token` (`src/resource.c:938-1135`). -/
def releaseToken (ds : List (Nat × Nat)) (opened nodisk : Bool) (next : Prog) : Prog :=
  .alt (closeDisks ds next)
    (if nodisk then next
     else
      let body := Prog.alt (closeDisks ds next) (ioDisks ds (closeDisks ds next))
      if opened then body else openDisks ds body next)

/-- The loop of `acquire_token` around `acquire_disk` (`src/resource.c:1818-1988`), retried at most `j` times. -/
def acquireLoop (ds : List (Nat × Nat)) (h : Nat × Nat) (k : Nat) : Nat → Prog
  | 0 => releaseToken ds true false (.ret false)
  | j + 1 =>
    acquireLease ds h
      (.alt (ioDisks ds (releaseToken ds true false (.ret false))) (ioDisks ds (closeDisks ds (.ret true))))
      (.alt (releaseToken ds true false (.ret false)) (acquireLoop ds h k j)) k false

/-- `acquire_token` (`src/resource.c:1625-1989`): refused or shared with a local holder, an orphan adopted, or a new resource. -/
def acquireToken (ds : List (Nat × Nat)) (h : Nat × Nat) (k j : Nat) : Prog :=
  .alt (.ret false) (.alt (.ret true)
    (.alt (openDisks ds (closeDisks ds (.ret true)) (releaseToken ds false true (.ret false)))
      (openDisks ds (acquireLoop ds h k j) (releaseToken ds false true (.ret false)))))

/-- `convert_token` (`src/resource.c:1560-1621`). -/
def convertToken (ds : List (Nat × Nat)) (h : Nat × Nat) (k : Nat) : Prog :=
  .alt (.ret false) (openDisks ds
    (.alt (ioDisks ds (closeDisks ds (.ret true)))
      (acquireLease ds h (ioDisks ds (closeDisks ds (.ret true))) (ioDisks ds (closeDisks ds (.ret false))) k false))
    (.ret false))

/-- `request_token` (`src/resource.c:1990-2089`), `resource_thread_release` (2252-2372), `resource_thread_examine` (2374-2414),
`cmd_read_resource`, `cmd_read_resource_owners` and `cmd_write_resource` (`src/cmd.c:1607-1970`): open, I/O, close. -/
def useDisks (ds : List (Nat × Nat)) : Prog :=
  .alt (.ret false) (openDisks ds (.alt (closeDisks ds (.ret false)) (ioDisks ds (closeDisks ds (.ret true)))) (.ret false))

/-- `cmd_align`, `cmd_read_lockspace`, `cmd_write_lockspace` (`src/cmd.c:1482-1605`, 1821-1872), `rindex_lookup` and
`rindex_update` (`src/rindex.c:619-879`) with the disk in variable 0. -/
def useDisk (f : Nat) : Prog :=
  .alt (.ret false) (.open 0 f
    (.alt (.closeDisk 0 (.ret false)) (.io 0 f (.alt (.closeDisk 0 (.ret false)) (.io 0 f (.closeDisk 0 (.ret true))))))
    (.ret false))

/-- `rindex_format` (`src/rindex.c:370-480`): bad flags end it without `close_disks` (397-399). -/
def rindexFormat (f : Nat) : Prog :=
  .open 0 f
    (.fault .badSizes (.ret false)
      (.alt (.closeDisk 0 (.ret false)) (.io 0 f (.alt (.closeDisk 0 (.ret false)) (.io 0 f (.closeDisk 0 (.ret true)))))))
    (.ret false)

/-- `rindex_create`, `rindex_delete` and `rindex_rebuild` (`src/rindex.c:482-617`, 881-966 and 968-1146), which use the disk of
the index in variable 0 for the lease of the index, too. -/
def rindexChange (f : Nat) (h : Nat × Nat) (k : Nat) : Prog :=
  .open 0 f
    (.alt (.closeDisk 0 (.ret false)) (.io 0 f (.alt (.closeDisk 0 (.ret false))
      (.alt (.io 0 f (.closeDisk 0 (.ret true)))
        (acquireLease [(0, f)] h (.io 0 f (.closeDisk 0 (.ret true))) (.closeDisk 0 (.ret false)) k false)))))
    (.ret false)

/-- One use of a sysfs file by `set_lockspace_max_sectors_kb` (`src/lockspace.c:665-735`, `src/diskio.c:34-83`) in variable 3. -/
def sysfs (y : Nat) (p : Prog) : Prog := .alt p (.open 3 y (.io 3 y (.close 3 p)) p)

/-- The renewals of a lockspace, each followed by a message to wdmd (`src/lockspace.c:918-1008`). -/
def renewals (f w : Nat) (wd : Bool) (p : Prog) : Nat → Prog
  | 0 => p
  | n + 1 => .io 0 f (if wd then .alt (.io 2 w (renewals f w wd p n)) (renewals f w wd p n) else renewals f w wd p n)

/-- The end of `lockspace_thread` (`src/lockspace.c:1019-1020`). -/
def spaceOut : Prog := .close 0 (.ret true)

/-- `lockspace_thread` (`src/lockspace.c:749-1043`): variable 0 is `host_id_disk.fd`, 1 is `wd_con`, 2 is `sp->wd_fd`, which is
0 at the start (`src/lockspace.c:1068`) and set by `activate_watchdog` (`src/watchdog.c:140`) only.
`wd` is `com.use_watchdog`, `n` the number of renewals. -/
def spaceThread (f w y : Nat) (wd : Bool) (n : Nat) : Prog :=
  .open 0 f
    (.io 0 f (.alt spaceOut (sysfs y (sysfs y (sysfs y (.alt spaceOut
      (if wd then
        .open 1 w
          (.io 1 w (.fault .wdFails
            -- disconnect_watchdog(sp) closes sp->wd_fd (lockspace.c:857, watchdog.c:176-182)
            (.close 2 spaceOut)
            (.io 0 f (.alt (.close 1 spaceOut)
              (.io 1 w (.alt (.close 1 (.io 0 f spaceOut))
                (.move 1 2 (renewals f w true (.close 2 (.io 0 f spaceOut)) n))))))))
          spaceOut
       else .io 0 f (.alt spaceOut (renewals f w false (.io 0 f spaceOut) n)))))))))
    (.ret false)

/-- A connection of a client: `process_listener` (`src/main.c:1359-1371`) to `_client_free` (213-275).
Without a free slot `client_add` fails, which `process_listener` does not look at. -/
def connection (f : Nat) : Prog :=
  .open 0 f (.fault .noSlot (.ret false) (.io 0 f (.closeDisk 0 (.ret true)))) (.ret false)

/-- The calls. -/
inductive Cmd where
  | acquire (fs : List Nat) (hf k j : Nat)
  | release (fs : List Nat)
  | convert (fs : List Nat) (hf k : Nat)
  | disks (fs : List Nat)
  | disk (f : Nat)
  | format (f : Nat)
  | change (f hf k : Nat)
  | space (f w y : Nat) (wd : Bool) (n : Nat)
  | client (f : Nat)

/-- The tree of a call. -/
def Cmd.prog : Cmd → Prog
  | .acquire fs hf k j => acquireToken (number 0 fs) (fs.length, hf) k j
  | .release fs => releaseToken (number 0 fs) false false (.ret true)
  | .convert fs hf k => convertToken (number 0 fs) (fs.length, hf) k
  | .disks fs => useDisks (number 0 fs)
  | .disk f => useDisk f
  | .format f => rindexFormat f
  | .change f hf k => rindexChange f (1, hf) k
  | .space f w y wd n => spaceThread f w y wd n
  | .client f => connection f

/-- The variables at the start: -1 (`src/cmd.c:343`, 1050, 1510, …, `src/lockspace.c:1074`), `sp->wd_fd` is 0. -/
def Cmd.store : Cmd → Nat → Int
  | .space .. => set (fun _ => -1) 2 0
  | _ => fun _ => -1

/-! ## Running them together -/

structure State where
  /-- the descriptors of the daemon -/
  tab : Nat → Option Ent
  /-- the calls that were started, with what is left of them and their variables -/
  thr : Nat → Option (Prog × (Nat → Int))
  /-- I/O that was done: value of the variable, the file that was meant, the file that it was -/
  hits : List (Int × Nat × Option Nat)
  /-- what was closed: by which call, opened by which call (none: it was not open) -/
  closes : List (Nat × Option Nat)
  /-- I/O that reached no file: by which call, the file that was meant -/
  lost : List (Nat × Nat)
  /-- files that a call could not open -/
  miss : List (Nat × Nat)
  /-- events that occurred -/
  ev : List Event

/-- What the next step is: a call begins, or the call `t` goes on (`b`: success, first way). -/
inductive Choice where
  | start (t : Nat) (c : Cmd)
  | go (t : Nat) (b : Bool)

/-- The lowest free descriptor below `lim`. -/
def lowest (lim : Nat) (tab : Nat → Option Ent) : Option Nat := (List.range lim).find? fun n => (tab n).isNone

/-- The entry of a descriptor. -/
def entry (tab : Nat → Option Ent) (x : Int) : Option Ent := if x < 0 then none else tab x.toNat

/-- The table after `close(x)`. -/
def shut (tab : Nat → Option Ent) (x : Int) : Nat → Option Ent := if x < 0 then tab else set tab x.toNat none

/-- `close(x)` by call `t`. -/
def doClose (s : State) (t : Nat) (x : Int) : State :=
  { s with tab := shut s.tab x, closes := (t, (entry s.tab x).map (·.tid)) :: s.closes }

/-- The call `t` goes on with `p` and variables `σ`. -/
def goOn (s : State) (t : Nat) (p : Prog) (σ : Nat → Int) : State := { s with thr := set s.thr t (some (p, σ)) }

/-- One system call or decision of the call `t`. -/
def move (lim : Nat) (s : State) (t : Nat) (b : Bool) : Prog → (Nat → Int) → State
  | .ret _, _ => s
  | .open v f ok err, σ =>
    match b, lowest lim s.tab with
    | true, some n => goOn { s with tab := set s.tab n (some ⟨t, f⟩) } t ok (set σ v n)
    | _, _ => goOn { s with miss := (t, f) :: s.miss } t err σ
  | .io v f p, σ => goOn { s with
      hits := (σ v, f, (entry s.tab (σ v)).map (·.file)) :: s.hits
      lost := if (entry s.tab (σ v)).isNone then (t, f) :: s.lost else s.lost } t p σ
  | .closeDisk v p, σ => if σ v = -1 then goOn s t p σ else goOn (doClose s t (σ v)) t p (set σ v (-1))
  | .close v p, σ => goOn (doClose s t (σ v)) t p σ
  | .move v w p, σ => goOn s t p (set σ w (σ v))
  | .ifSet v p q, σ => goOn s t (if σ v = -1 then q else p) σ
  | .alt p q, σ => goOn s t (if b then p else q) σ
  | .fault e p q, σ => if b then goOn { s with ev := e :: s.ev } t p σ else goOn s t q σ

/-- One step. -/
def step (lim : Nat) (s : State) : Choice → State
  | .start t c => if t = 0 ∨ (s.thr t).isSome then s else goOn s t c.prog c.store
  | .go t b => match s.thr t with
    | none => s
    | some (p, σ) => move lim s t b p σ

/-- All steps. -/
def run (lim : Nat) (s : State) (cs : List Choice) : State := cs.foldl (step lim) s

/-- The daemon before the first call: only its own descriptors are open. -/
def start (own : Nat → Option Nat) : State :=
  { tab := fun n => (own n).map fun f => ⟨0, f⟩, thr := fun _ => none, hits := [], closes := [], lost := [], miss := [], ev := [] }

/-- The call has ended. -/
def ended (s : State) (t : Nat) : Prop := ∃ r σ, s.thr t = some (.ret r, σ)

end Sanlock.Descr
