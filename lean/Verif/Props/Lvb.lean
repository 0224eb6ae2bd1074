import Verif.Lvb

/-!
# C37: the value block is read back

The layout half of C37 is in `Verif/Props/SizeFlags.lean`.
-/

namespace Sanlock.Lvb

@[grind =] theorem State.set_apply (s : State) (h : Nat) (x : Host) (i : Nat) :
    (s.set h x).host i = if i = h then x else s.host i := rfl
@[grind =] theorem State.set_lvb (s : State) (h : Nat) (x : Host) : (s.set h x).lvb = s.lvb := rfl
@[grind =] theorem State.set_value (s : State) (h : Nat) (x : Host) : (s.set h x).value = s.value := rfl
@[grind =] theorem State.set_sector (s : State) (h : Nat) (x : Host) : (s.set h x).sector = s.sector := rfl

structure Inv (s : State) : Prop where
  noErase : ∀ h, (s.host h).erase = false
  ex : ∀ h, (s.host h).pc = .ex → (s.host h).disk = .ex
  sh : ∀ h, (s.host h).pc = .sh → (s.host h).disk = .sh
  none : ∀ h, (s.host h).pc = .none → (s.host h).disk = .none
  shared : ∀ h, (s.host h).pc = .sh → (s.host h).shared = true
  excl : ∀ h i, (s.host h).disk = .ex → i ≠ h → (s.host i).disk = .none
  rem : ∀ h, (s.host h).pc = .rem → (s.host h).dirty = false ∨ (s.host h).shared = true
  buf : ∀ h b, (s.host h).pc = .ex → (s.host h).buf = some b → b = s.value
  cover : s.lvb = s.value ∨ ∃ h, (s.host h).pc = .ex ∧ (s.host h).dirty = true
  shbuf : ∀ h b, (s.host h).pc = .sh → (s.host h).buf = some b → (s.host h).priv = false → b = s.value
  dirty : ∀ h, (s.host h).dirty = true → (s.host h).buf ≠ Option.none
  exsh : ∀ h, (s.host h).pc = .ex → (s.host h).shared = false
  expriv : ∀ h, (s.host h).pc = .ex → (s.host h).priv = false
  priv : ∀ h, (s.host h).pc = .sh → (s.host h).priv = true → (s.host h).dirty = true
  len : s.lvb.length = s.sector
  blen : ∀ h b, (s.host h).buf = some b → b.length = s.sector

theorem init_inv (n : Nat) (b : Bytes) (hb : b.length = n) : Inv (init n b) := by
  constructor <;> simp [init, hb, noHost]

theorem over_length {v b : Bytes} {n : Nat} (hb : b.length = n) (hv : v.length ≤ n) :
    (over v b).length = n := by
  unfold over; simp; omega

theorem step_inv {s t : State} {a : Act} (hi : Inv s) (he : Exclusive s a) (hn : NoError a)
    (hs : step s a = some t) : Inv t := by
  obtain ⟨i1, i2, i3, i4, i5, i6, i7, i8, i9, i10, i11, i12, i13, i14, i15, i16⟩ := hi
  cases a with
  | acquire h excl lvb read junk =>
    simp only [step] at hs
    split at hs <;> cases hs
    simp only [Exclusive, NoError] at he hn
    have hlv : s.lvb = s.value := by
      rcases i9 with hv | ⟨h0, hv, -⟩
      · exact hv
      · exact absurd (i2 h0 hv) (he h0 (by grind)).1
    simp only [readBuf]
    constructor <;> (try dsimp only) <;> grind (splits := 15)
  | set h v =>
    simp only [step] at hs
    split at hs
    · split at hs
      · cases hs; exact ⟨i1, i2, i3, i4, i5, i6, i7, i8, i9, i10, i11, i12, i13, i14, i15, i16⟩
      · split at hs
        · cases hs; exact ⟨i1, i2, i3, i4, i5, i6, i7, i8, i9, i10, i11, i12, i13, i14, i15, i16⟩
        · next b hb hl =>
          cases hs
          have ho := over_length (v := v) (i16 h b hb) (by omega)
          constructor
          case cover =>
            dsimp only
            by_cases hp : (s.host h).pc = .ex
            · exact .inr ⟨h, by simp [State.set_apply, hp]⟩
            · rcases i9 with hv | ⟨h0, hv, hd⟩
              · exact .inl (by simp [State.set_lvb, hp, hv])
              · refine .inr ⟨h0, ?_⟩
                have : h0 ≠ h := by intro hc; subst hc; exact hp hv
                simp [State.set_apply, this, hv, hd]
          all_goals (try dsimp only) <;> grind (splits := 15)
    · cases hs
  | down h wr rel =>
    simp only [NoError] at hn
    obtain ⟨rfl, rfl⟩ := hn
    simp only [step] at hs
    split at hs <;> cases hs
    have hw : writeLvb (s.host h) true s.lvb = s.value := by
      unfold writeLvb
      grind
    have hvl : s.value.length = s.sector := by
      rw [← hw]; unfold writeLvb; grind
    simp only [hw]
    constructor <;> (try dsimp only) <;> grind (splits := 15)
  | up h =>
    simp only [step] at hs
    split at hs <;> cases hs
    simp only [Exclusive] at he
    have hv : (∃ b, (s.host h).buf = some b ∧ (s.host h).dirty = true ∧ upValue (s.host h) s.value = b) ∨
        ((s.host h).dirty = false ∧ upValue (s.host h) s.value = s.value) := by
      unfold upValue
      grind
    have hlv : s.lvb = s.value := by
      rcases i9 with hv | ⟨h0, hv, -⟩
      · exact hv
      · grind
    constructor
    case cover =>
      dsimp only
      rcases hv with ⟨b, hb, hd, -⟩ | ⟨-, hu⟩
      · exact .inr ⟨h, by simp [State.set_apply, hd]⟩
      · exact .inl (by rw [hu]; exact hlv)
    all_goals (try dsimp only) <;> grind (splits := 15)
  | release h wr rel =>
    simp only [NoError] at hn
    subst hn
    simp only [step] at hs
    split at hs <;> cases hs
    have hp : (s.host h).pc = .ex ∨ (s.host h).pc = .sh ∨ (s.host h).pc = .rem := by
      cases hq : (s.host h).pc <;> simp_all
    cases hsh : (s.host h).shared
    · have hl : (s.host h).pc = .ex ∧ writeLvb (s.host h) true s.lvb = s.value ∨
          (s.host h).pc = .rem ∧ (s.host h).dirty = false ∧ writeLvb (s.host h) true s.lvb = s.lvb := by
        unfold writeLvb
        rcases i9 with hv | ⟨h0, hv, hd⟩
        · grind
        · by_cases hh : h0 = h
          · grind
          · grind
      have hvl : (writeLvb (s.host h) true s.lvb).length = s.sector := by
        unfold writeLvb; grind
      simp only [releaseStep, hsh, i1, Bool.not_false, Bool.and_self, ↓reduceIte, noHost]
      have hcov : writeLvb (s.host h) true s.lvb = s.value ∨ ∃ i, i ≠ h ∧ (s.host i).pc = .ex ∧ (s.host i).dirty = true := by
        rcases i9 with hv | ⟨h0, hv, hd⟩
        · exact .inl (by grind)
        · by_cases hh : h0 = h
          · exact .inl (by grind)
          · exact .inr ⟨h0, hh, hv, hd⟩
      cases rel <;> constructor
      case ok.cover | landed.cover | lost.cover =>
        rcases hcov with hv | ⟨i, hi, hv, hd⟩
        · exact .inl hv
        · exact .inr ⟨i, by simp [State.set_apply, hi, hv, hd]⟩
      all_goals (try dsimp only) <;> grind (splits := 15)
    · simp only [releaseStep, hsh, i1, Bool.not_true, Bool.false_and, Bool.false_eq_true, ↓reduceIte, noHost]
      have hcov : s.lvb = s.value ∨ ∃ i, i ≠ h ∧ (s.host i).pc = .ex ∧ (s.host i).dirty = true := by
        rcases i9 with hv | ⟨h0, hv, hd⟩
        · exact .inl hv
        · exact .inr ⟨h0, by grind, hv, hd⟩
      cases rel <;> constructor
      case ok.cover | landed.cover | lost.cover =>
        rcases hcov with hv | ⟨i, hi, hv, hd⟩
        · exact .inl hv
        · exact .inr ⟨i, by simp [State.set_apply, hi, hv, hd]⟩
      all_goals (try dsimp only) <;> grind (splits := 15)

theorem reach_inv {n : Nat} {b : Bytes} (hb : b.length = n) {s : State} (hr : ReachA n b s) : Inv s := by
  induction hr with
  | init => exact init_inv n b hb
  | step a _ he hn hs ih => exact step_inv ih he hn hs

theorem steps_inv {s t : State} {l : List Act} (hi : Inv s) (h : Steps s l t) : Inv t := by
  induction h with
  | nil => exact hi
  | cons he hn hs _ ih => exact ih (step_inv hi he hn hs)

/-- The sector size does not change. -/
theorem step_sector {s t : State} {a : Act} (hs : step s a = some t) : t.sector = s.sector := by
  cases a <;> simp only [step, releaseStep] at hs <;> grind

theorem value_length {s : State} (hi : Inv s) : s.value.length = s.sector := by
  rcases hi.cover with h | ⟨h, he, hd⟩
  · rw [← h]; exact hi.len
  · cases hb : (s.host h).buf with
    | none => exact absurd hb (hi.dirty h hd)
    | some b => rw [← hi.buf h b he hb]; exact hi.blen h b hb

/-- Only a `set` by an exclusive holder, or a conversion to exclusive, changes the value. -/
def Quiet : Act → Prop
  | .set _ _ | .up _ => False
  | _ => True

theorem step_value {s t : State} {a : Act} (hq : Quiet a) (hs : step s a = some t) : t.value = s.value := by
  cases a <;> simp only [step, releaseStep, Quiet] at hs hq <;> grind

theorem steps_value {s t : State} {l : List Act} (hq : ∀ a ∈ l, Quiet a) (h : Steps s l t) :
    t.value = s.value := by
  induction h with
  | nil => rfl
  | cons _ _ hs _ ih =>
    rw [ih (fun a ha => hq a (List.mem_cons_of_mem _ ha)), step_value (hq _ (List.mem_cons_self ..)) hs]

/-- What a holder reads: the exclusive holder, and a shared holder that has not itself set a value,
read the value, whatever length up to the sector size they ask for. -/
theorem get_value {s : State} (hi : Inv s) {h : Nat} {b : Bytes} (hb : (s.host h).buf = some b)
    (hh : (s.host h).pc = .ex ∨ ((s.host h).pc = .sh ∧ (s.host h).priv = false)) :
    get s h 0 = some (.ok s.value) ∧ ∀ n, 0 < n → n ≤ s.sector → get s h n = some (.ok (s.value.take n)) := by
  have hbv : b = s.value := by
    rcases hh with hh | ⟨hh, hp⟩
    · exact hi.buf h b hh hb
    · exact hi.shbuf h b hh hb hp
  subst hbv
  have hl := value_length hi
  constructor
  · rcases hh with hh | ⟨hh, -⟩ <;> simp [get, hh, hb, ← hl]
  · intro n hn hle
    have h0 : n ≠ 0 := by omega
    have h1 : ¬ s.sector < n := by omega
    rcases hh with hh | ⟨hh, -⟩ <;> simp [get, hh, hb, h0, h1]

/-- **C37, read-back half.**  Executions of any number of hosts in which value block I/O does not fail and
exclusion holds; releases of the leader record may time out, landing or not, and be retried.  When an
exclusive holder sets a full sector, then whatever happens next, other than another exclusive holder
setting the value, every host that acquires the lease with its value block, in either mode, reads exactly
what was set.
Missing (and false, see below): executions with failed value block I/O or failed conversions. -/
theorem value_read_back_partial {n : Nat} {b0 : Bytes} (hb0 : b0.length = n) {s t u w : State}
    (hr : ReachA n b0 s) {h : Nat} {v : Bytes} (hex : (s.host h).pc = .ex) (hbuf : (s.host h).buf ≠ none)
    (hv : v.length = n) (hset : step s (.set h v) = some t)
    {l : List Act} (hq : ∀ a ∈ l, Quiet a) (hl : Steps t l u)
    {h' : Nat} {excl : Bool} {junk : Bytes} (he : Exclusive u (.acquire h' excl true true junk))
    (hacq : step u (.acquire h' excl true true junk) = some w) :
    get w h' 0 = some (.ok v) := by
  have hsec : ∀ {x : State}, ReachA n b0 x → x.sector = n := by
    intro x hx
    induction hx with
    | init => rfl
    | step a _ _ _ hs ih => rw [step_sector hs, ih]
  have hi := reach_inv hb0 hr
  have hit : Inv t := step_inv hi (by simp [Exclusive]) (by simp [NoError]) hset
  have hiu := steps_inv hit hl
  have hiw : Inv w := step_inv hiu he (by simp [NoError]) hacq
  have htv : t.value = v := by
    cases hb : (s.host h).buf with
    | none => exact absurd hb hbuf
    | some b =>
      have hle := hi.blen h b hb
      have hn : ¬ s.sector < v.length := by rw [hsec hr]; omega
      have hd : List.drop n b = [] := by
        apply List.drop_eq_nil_of_le
        rw [hle, hsec hr]; omega
      simp [step, hex, hb, hn] at hset
      rw [← hset]
      simp [over, hv, hd]
  have huv : w.value = v := by
    rw [step_value (a := .acquire h' excl true true junk) trivial hacq, steps_value hq hl, htv]
  simp only [step] at hacq
  split at hacq <;> cases hacq
  rw [← huv]
  refine (get_value hiw (h := h') (b := u.lvb) ?_ ?_).1
  · simp [State.set_apply, readBuf]
  · cases excl <;> simp [State.set_apply]

/-- The exclusive holder itself reads what the last one set, as long as it sets nothing. -/
theorem holder_reads_value_partial {n : Nat} {b0 : Bytes} (hb0 : b0.length = n) {s : State}
    (hr : ReachA n b0 s) {h : Nat} (hex : (s.host h).pc = .ex) (hbuf : (s.host h).buf ≠ none) :
    get s h 0 = some (.ok s.value) := by
  cases hb : (s.host h).buf with
  | none => exact absurd hb hbuf
  | some b => exact (get_value (reach_inv hb0 hr) hb (.inl hex)).1

/-! ## Examples and violations, with sectors of one byte -/

def run (s : State) : List Act → Option State
  | [] => some s
  | a :: l => (step s a).bind fun t => run t l

/-- Exclusion as a test, for hosts below `k`. -/
def exclB (k : Nat) (s : State) : Act → Bool
  | .acquire h excl _ _ _ => (List.range k).all fun i =>
      i == h || ((s.host i).disk != .ex && (!excl || (s.host i).disk == .none))
  | .up h => (List.range k).all fun i => i == h || (s.host i).disk == .none
  | _ => true

def runB (k : Nat) (s : State) : List Act → Option State
  | [] => some s
  | a :: l => if exclB k s a then (step s a).bind fun t => runB k t l else none

def hostOf : Act → Nat
  | .acquire h _ _ _ _ | .set h _ | .down h _ _ | .up h | .release h _ _ => h

theorem step_other {s t : State} {a : Act} (hs : step s a = some t) {i : Nat} (hi : i ≠ hostOf a) :
    t.host i = s.host i := by
  cases a <;> simp only [step, releaseStep, hostOf, State.set] at hs hi <;> grind

theorem runB_reach {n k : Nat} {b : Bytes} {s t : State} {l : List Act} (hr : Reach n b s)
    (hk : ∀ i, k ≤ i → (s.host i).disk = .none) (hl : ∀ a ∈ l, hostOf a < k) (h : runB k s l = some t) :
    Reach n b t := by
  induction l generalizing s with
  | nil => cases h; exact hr
  | cons a l ih =>
    simp only [runB] at h
    split at h
    · next he =>
      cases hs : step s a with
      | none => simp [hs] at h
      | some u =>
        simp [hs] at h
        have hx : Exclusive s a := by
          cases a <;> simp only [Exclusive, exclB] at he ⊢ <;> intro i hi <;>
            by_cases hik : i < k <;> simp only [List.all_eq_true, List.mem_range] at he <;>
            (try have := he i hik) <;> (try have := hk i (by omega)) <;> simp_all <;> grind
        refine ih (Reach.step a hr hx hs) ?_ (fun c hc => hl c (List.mem_cons_of_mem _ hc)) h
        intro i hi
        have := hl a (List.mem_cons_self ..)
        rw [step_other hs (by omega)]
        exact hk i hi
    · cases h

/-- After the run `l` from the initial state, host `h` holding the lease reads `v`, while the value last
set is `w`. -/
def reads (l : List Act) (h : Nat) (v w : Bytes) : Bool :=
  match runB 5 (init 1 [0]) l with
  | some s => (match get s h 0 with | some (.ok x) => decide (x = v) | _ => false) &&
      decide ((s.host h).pc = .ex) && decide (s.value = w)
  | none => false

theorem reads_reach {l : List Act} {h : Nat} {v w : Bytes} (hl : ∀ a ∈ l, hostOf a < 5)
    (hx : reads l h v w = true) :
    ∃ s, Reach 1 [0] s ∧ (s.host h).pc = .ex ∧ get s h 0 = some (.ok v) ∧ s.value = w := by
  unfold reads at hx
  split at hx
  · next s hs =>
    simp only [Bool.and_eq_true, decide_eq_true_eq] at hx
    refine ⟨s, runB_reach .init (fun i _ => rfl) hl hs, hx.1.2, ?_, hx.2⟩
    have h1 := hx.1.1
    split at h1
    · next x hg => simp only [decide_eq_true_eq] at h1; rw [hg, h1]
    · cases h1
  · cases hx

/-- Host 1 sets 7 and releases, host 2 acquires shared: it reads 7. -/
example : ((run (init 1 [0]) [.acquire 1 true true true [], .set 1 [7], .release 1 true .landed,
    .release 1 true .ok, .acquire 2 false true true []]).bind fun s => get s 2 0) = some (.ok [7]) := by
  simp [run, step, init, noHost, State.set, releaseStep, writeLvb, readBuf, over, get]

/-- **C37 is violated** when writing the value block fails during a release: the release succeeds all the
same, and the next holder reads the old value. -/
theorem write_error_violated :
    ∃ s, Reach 1 [0] s ∧ (s.host 2).pc = .ex ∧ get s 2 0 = some (.ok [0]) ∧ s.value = [7] :=
  reads_reach (l := [.acquire 1 true true true [], .set 1 [7], .release 1 false .ok,
    .acquire 2 true true true []]) (by decide) (by decide)

/-- **C37 is violated** by the retry of a release: the write of the value block failed, releasing the
leader record timed out but landed; the retry then overwrites the value that the next holder has stored
in the meantime. -/
theorem retry_overwrites_violated :
    ∃ s, Reach 1 [0] s ∧ (s.host 3).pc = .ex ∧ get s 3 0 = some (.ok [7]) ∧ s.value = [9] :=
  reads_reach (l := [.acquire 1 true true true [], .set 1 [7], .release 1 false .landed,
    .acquire 2 true true true [], .set 2 [9], .release 2 true .ok, .release 1 true .ok,
    .acquire 3 true true true []]) (by decide) (by decide)

/-- **C37 is violated** when reading the value block fails during an acquire: the acquire succeeds and the
holder is given the contents of uninitialised memory, here 99. -/
theorem read_error_violated :
    ∃ s, Reach 1 [0] s ∧ (s.host 2).pc = .ex ∧ get s 2 0 = some (.ok [99]) ∧ s.value = [7] :=
  reads_reach (l := [.acquire 1 true true true [], .set 1 [7], .release 1 true .ok,
    .acquire 2 true true false [99]]) (by decide) (by decide)

/-- **C37 is violated** after a failed conversion to shared: the caller still has its exclusive lease,
but a value set from then on is not written by the release. -/
theorem failed_convert_violated :
    ∃ s, Reach 1 [0] s ∧ (s.host 2).pc = .ex ∧ get s 2 0 = some (.ok [0]) ∧ s.value = [7] :=
  reads_reach (l := [.acquire 1 true true true [], .down 1 true .lost, .set 1 [7], .release 1 true .ok,
    .acquire 2 true true true []]) (by decide) (by decide)

/-- Asking for more bytes than a sector reads behind the buffer. -/
theorem get_too_long_violated {s : State} {h : Nat} {b : Bytes} (hp : (s.host h).pc = .ex)
    (hb : (s.host h).buf = some b) {n : Nat} (hn : s.sector < n) : get s h n = none := by
  have h0 : n ≠ 0 := by omega
  simp [get, hp, hb, h0, hn]

/-- A value longer than a sector is refused and changes nothing. -/
theorem set_too_long {s : State} {h : Nat} {b v : Bytes} (hp : (s.host h).pc = .ex)
    (hb : (s.host h).buf = some b) (hv : s.sector < v.length) : step s (.set h v) = some s := by
  simp [step, hp, hb, hv]

end Sanlock.Lvb
