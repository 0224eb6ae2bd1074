import Verif.Props.Reset

/-!
# C53: the host to be reset

`sanlk-resetd` gives its connection to wdmd an expiry time that has already come.  The theorems follow wdmd from the
moment it takes that message.
-/

namespace Sanlock.ResetHost

open Wdmd

/-- The connection is not renewed by its owner.  Either it keeps its reference (`ended` is false; it may be closed,
because the daemon is killed), or wdmd is not told to stop. -/
def Kept (ci : Nat) (ended : Bool) : Ev → Prop
  | .testLive c _ => c ≠ ci
  | .refClear c => ended = false → c ≠ ci
  | .sigterm => ended = false
  | _ => True

/-- A test ends at most `D` seconds after the previous keep-alive. -/
def Within (D : Nat) (s : St) : Ev → Prop
  | .round n _ _ => s.devOpen = true → s.now - s.testTime ≥ s.testInterval → s.now + n ≤ s.dev.lastPing + D
  | _ => True

def WithinRun (D : Nat) (s : St) : List Ev → Prop
  | [] => True
  | e :: es => Within D s e ∧ WithinRun D (step s e) es

/-- Connection `ci` has expired, the device is armed and was last pinged before `T`, or at most `D` seconds later when
it was closed for good. -/
structure Expired (s : St) (ci T D : Nat) (ended : Bool) : Prop where
  entry : ∃ c, s.clients[ci]? = some c ∧ c.used = true ∧ c.internal = false ∧ c.expire ≠ 0 ∧
    c.expire.toNat ≤ s.now ∧ (ended = false → c.refcount = true)
  quit : ended = true → s.quit = false
  running : s.exited = false
  enabled : s.enabled = true
  armed : s.dev.armed = true
  last : s.dev.lastPing ≤ T + D
  isOpen : s.devOpen = true → s.dev.lastPing ≤ T

theorem expired_step {s : St} {ci T D : Nat} {ended : Bool} (h : Expired s ci T D ended) (e : Ev)
    (hq : Kept ci ended e) (ht : Within D s e) :
    Expired (step s e) ci T D ended ∧ (step s e).fire = s.fire := by
  obtain ⟨⟨c, hc, hu, hi, hne, hex, href⟩, hquit, hrun, hen, harm, hlast, hopen⟩ := h
  have hext : external s.clients = true := by
    simp only [external, List.any_eq_true, Bool.and_eq_true, Bool.not_eq_true']
    exact ⟨c, List.mem_of_getElem? hc, hu, hi⟩
  have hcl : ∀ ci' f, (∀ c, ci' ≠ ci ∨ ((f c).used = c.used ∧ (f c).internal = c.internal ∧
        (f c).expire = c.expire ∧ (ended = false → c.refcount = true → (f c).refcount = true))
        ∨ (f = clientPidDead)) →
      ∃ c, (onClient s ci' f).clients[ci]? = some c ∧ c.used = true ∧ c.internal = false ∧ c.expire ≠ 0 ∧
        c.expire.toNat ≤ s.now ∧ (ended = false → c.refcount = true) := by
    intro ci' f hf
    simp only [onClient, List.getElem?_modify, hc, Option.map_eq_map, Option.map_some]
    by_cases hcc : ci' = ci
    · simp only [hcc, if_true, Option.some.injEq]
      refine ⟨_, rfl, ?_⟩
      by_cases ho : c.isOpen = true
      · simp only [ho, if_true]
        rcases hf c with h | ⟨h1, h2, h3, h4⟩ | h
        · exact absurd hcc h
        · rw [h1, h2, h3]; exact ⟨hu, hi, hne, hex, fun he => h4 he (href he)⟩
        · rw [h]
          simp only [clientPidDead, hne, if_false]
          exact ⟨hu, hi, hne, hex, href⟩
      · simp only [ho]; exact ⟨hu, hi, hne, hex, href⟩
    · simp only [hcc, if_false]; exact ⟨c, rfl, hu, hi, hne, hex, href⟩
  cases e
  case wait d =>
    exact ⟨⟨⟨c, hc, hu, hi, hne, Nat.le_trans hex (Nat.le_add_right _ _), href⟩, hquit, hrun, hen, harm, hlast,
      hopen⟩, rfl⟩
  case openWatchdog ci' f o a =>
    have : step s (.openWatchdog ci' f o a) = s := by simp [step, hrun, openWatchdog, hen]
    rw [this]
    exact ⟨⟨⟨c, hc, hu, hi, hne, hex, href⟩, hquit, hrun, hen, harm, hlast, hopen⟩, rfl⟩
  case connect =>
    simp only [step, hrun, Bool.false_eq_true, if_false]
    exact ⟨⟨⟨c, clientAdd_keeps _ _ _ hc hu, hu, hi, hne, hex, href⟩, hquit, rfl, hen, harm, hlast, hopen⟩, trivial⟩
  case sigterm =>
    simp only [step, hrun, Bool.false_eq_true, if_false]
    have hq' : ended = false := hq
    exact ⟨⟨⟨c, hc, hu, hi, hne, hex, href⟩, fun h => (by rw [hq'] at h; cases h), rfl, hen, harm, hlast, hopen⟩,
      trivial⟩
  case refSet ci' =>
    simp only [step, hrun, Bool.false_eq_true, if_false]
    exact ⟨⟨hcl _ _ (fun c => Or.inr (Or.inl ⟨rfl, rfl, rfl, fun _ _ => rfl⟩)), hquit, hrun, hen, harm, hlast, hopen⟩,
      rfl⟩
  case refClear ci' =>
    simp only [step, hrun, Bool.false_eq_true, if_false]
    refine ⟨⟨hcl _ _ (fun c => ?_), hquit, hrun, hen, harm, hlast, hopen⟩, rfl⟩
    by_cases he : ended = false
    · exact Or.inl (hq he)
    · exact Or.inr (Or.inl ⟨rfl, rfl, rfl, fun h => absurd h he⟩)
  case testLive ci' x =>
    simp only [step, hrun, Bool.false_eq_true, if_false]
    exact ⟨⟨hcl _ _ (fun c => Or.inl hq), hquit, hrun, hen, harm, hlast, hopen⟩, rfl⟩
  case hup ci' =>
    simp only [step, hrun, Bool.false_eq_true, if_false]
    exact ⟨⟨hcl _ _ (fun c => Or.inr (Or.inr rfl)), hquit, hrun, hen, harm, hlast, hopen⟩, rfl⟩
  case round n f ok =>
    have hact : (s.quit && !active s.clients) = false := by
      cases he : ended
      · have : active s.clients = true := (active_iff s).mpr ⟨c, List.mem_of_getElem? hc, hu, href he⟩
        simp [this]
      · simp [hquit he]
    have hround : step s (.round n f ok) =
        if s.now - s.testTime ≥ s.testInterval then runTests s n f ok else s := by
      simp only [step, hrun, Bool.false_eq_true, if_false, round, hact, hen, Bool.not_true, hext, Bool.and_false,
        Bool.false_and]
    rw [hround]
    split
    · rename_i hdue
      simp only [Within] at ht
      have hpos : testClients s.stdInterval (s.now + n) s.clients ≠ 0 := by
        have := testClients_pos (std := s.stdInterval) (now := s.now + n) (List.mem_of_getElem? hc)
          (show clientFails s.stdInterval (s.now + n) c = true by
            have h1 : s.now + n ≥ c.expire.toNat := by omega
            simp [clientFails, hu, hne, h1])
        omega
      unfold runTests
      simp only
      rw [if_neg (by omega)]
      cases hd : s.devOpen
      · simp only [closeWatchdogUnclean, hd, Bool.false_eq_true, if_false]
        exact ⟨⟨⟨c, hc, hu, hi, hne, Nat.le_trans hex (Nat.le_add_right _ _), href⟩, hquit, hrun, hen, harm, hlast,
          by simp⟩, trivial⟩
      · have ht' := ht hd hdue
        have ho' := hopen hd
        simp only [closeWatchdogUnclean, hd, if_true, St.emit, Dev.op]
        exact ⟨⟨⟨c, hc, hu, hi, hne, Nat.le_trans hex (Nat.le_add_right _ _), href⟩, hquit, hrun, hen, harm,
          by show s.now + n ≤ T + D; omega, by simp⟩, trivial⟩
    · exact ⟨⟨⟨c, hc, hu, hi, hne, hex, href⟩, hquit, hrun, hen, harm, hlast, hopen⟩, rfl⟩

/-- **The host.** Once the daemon's connection to wdmd has expired at time `T`, the device stays armed and is not pinged
after `T + D`, whatever else happens: it fires at `T + D + fire` at the latest. -/
theorem expired_fires {s : St} {ci T D : Nat} {ended : Bool} (h : Expired s ci T D ended) (es : List Ev)
    (hq : ∀ e ∈ es, Kept ci ended e) (ht : WithinRun D s es) :
    (run s es).dev.armed = true ∧ (run s es).exited = false ∧
      (run s es).dev.lastPing + (run s es).fire ≤ T + D + s.fire := by
  suffices hh : Expired (run s es) ci T D ended ∧ (run s es).fire = s.fire from
    ⟨hh.1.armed, hh.1.running, by have := hh.1.last; omega⟩
  induction es generalizing s with
  | nil => exact ⟨h, rfl⟩
  | cons e es ih =>
    rw [run_cons]
    obtain ⟨h1, h2⟩ := expired_step h e (hq e List.mem_cons_self) ht.1
    obtain ⟨h3, h4⟩ := ih h1 (fun x hx => hq x (List.mem_cons_of_mem _ hx)) ht.2
    exact ⟨h3, by rw [h4, h2]⟩

/-- The message of `watchdog_reset_self` puts wdmd into such a state. -/
theorem live_expires {s : St} {ci D : Nat} {c : Client} {x : UInt64} (hc : s.clients[ci]? = some c)
    (hu : c.used = true) (ho : c.isOpen = true) (hi : c.internal = false) (href : c.refcount = true) (hx : x ≠ 0)
    (hxn : x.toNat ≤ s.now) (hrun : s.exited = false) (hen : s.enabled = true) (harm : s.dev.armed = true)
    (hl : s.dev.lastPing ≤ s.now) : Expired (step s (.testLive ci x)) ci s.now D false := by
  simp only [step, hrun, Bool.false_eq_true, if_false]
  refine ⟨⟨{ c with expire := x }, ?_, hu, hi, hx, hxn, fun _ => href⟩, fun h => (by cases h), hrun, hen, harm,
    Nat.le_trans hl (Nat.le_add_right _ _), fun _ => hl⟩
  simp only [onClient, List.getElem?_modify, hc, Option.map_eq_map, Option.map_some, if_true, ho]

/-- wdmd with `sanlk-resetd` connected (entry 2) and the watchdog opened by sanlock (entry 3), last pinged at 100; at
104 the daemon's message comes. -/
def exBefore : St := run (init 100) [.connect, .refSet 2, .connect, .openWatchdog 3 60 true true, .refSet 3,
  .round 0 0 true, .wait 4]

/-- Example: the daemon is stopped at 106, sanlock goes on; the test at 110 closes the device, which fires at 170. -/
example : Expired (step exBefore (.testLive 2 104)) 2 104 10 false :=
  live_expires (c := { Client.empty with used := true, isOpen := true, refcount := true }) (by decide) rfl rfl rfl rfl
    (by decide) (by decide) (by decide) (by decide) (by decide) (by decide)

def exRun : List Ev := [.wait 2, .hup 2, .wait 4, .round 0 0 true, .testLive 3 190, .wait 1, .round 0 0 true, .wait 59]

example : (∀ e ∈ exRun, Kept 2 false e) ∧ WithinRun 10 (step exBefore (.testLive 2 104)) exRun ∧
    (run (step exBefore (.testLive 2 104)) exRun).dev = { armed := true, lastPing := 110 } := by
  refine ⟨?_, ?_, by decide⟩
  · intro e he
    simp only [exRun, List.mem_cons, List.not_mem_nil, or_false] at he
    rcases he with rfl | rfl | rfl | rfl | rfl | rfl | rfl | rfl <;> first | trivial | (simp [Kept])
  · unfold exRun
    simp only [WithinRun, Within, true_and, and_true]
    decide

end Sanlock.ResetHost
