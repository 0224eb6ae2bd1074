import Verif.Sectors
import Verif.Props.Config

/-!
# C78: the size of requests to the disk of a lockspace
-/

namespace Sanlock.Sectors

open Config (Str atoi decInt decInt_char decInt_ne atoi_decInt dec decF)

theorem decF_len : ∀ f n k : Nat, n < 10 ^ (k + 1) → (decF f n).length ≤ k + 1 := by
  intro f
  induction f with
  | zero => intro n k _; show 1 ≤ k + 1; omega
  | succ f ih =>
    intro n k h
    unfold decF
    split
    · show 1 ≤ k + 1; omega
    · next h10 =>
      cases k with
      | zero => exact absurd h (by rw [Nat.zero_add, Nat.pow_one]; exact h10)
      | succ k =>
        have : n / 10 < 10 ^ (k + 1) := by
          rw [Nat.pow_succ] at h
          omega
        have := ih (n / 10) k this
        rw [List.length_append]
        show _ + 1 ≤ _
        omega

/-- What the kernel shows for the number `n` is read as `n`. -/
theorem read_shown {n : Nat} (h : n < 2147483648) : readUint (decInt n ++ [10]) = n := by
  have hlen : (decInt (n : Int)).length ≤ 10 := by
    unfold decInt
    rw [if_neg (by omega)]
    exact decF_len _ _ 9 (by omega)
  have hz : ∀ c ∈ decInt (n : Int) ++ [10], c ≠ 0 := by
    intro c hc
    rcases List.mem_append.mp hc with h | h
    · have := decInt_char _ c h; omega
    · rw [List.mem_singleton] at h; omega
  have hc : Config.cstr (decInt (n : Int) ++ [10]) = decInt (n : Int) ++ [10] := by
    unfold Config.cstr
    generalize decInt (n : Int) ++ [10] = l at hz
    induction l with
    | nil => rfl
    | cons c t ih =>
      rw [List.takeWhile_cons, if_pos (decide_eq_true (hz c List.mem_cons_self)), ih fun d hd => hz d (List.mem_cons_of_mem _ hd)]
  unfold readUint
  dsimp only
  rw [List.take_of_length_le (by rw [List.length_append]; show _ + 1 ≤ 32; omega), hc, List.getLast?_concat, if_pos rfl,
    List.dropLast_concat, if_neg (decInt_ne _), atoi_decInt (by omega) (by omega)]
  omega

/-- A device on which the hardware can do `hw` kilobytes at once. -/
structure Shows (d : Dev) (hw : Nat) : Prop where
  text : d.text = some (decInt hw ++ [10])
  pos : 0 < hw
  small : hw < 2147483648

/-- The value that the configuration asks for (`sanlock.8`): the align size or a number of kilobytes. -/
def Asked (cfg : Config.Sectors) (align want : Nat) : Prop :=
  (cfg = .align ∧ want = align / 1024) ∨ (cfg = .num want ∧ 0 < want ∧ want < 4294967296)

theorem choose_asked {cfg : Config.Sectors} {align want hw : Nat} {d : Dev} (h : Asked cfg align want) (hs : Shows d hw)
    (hr : d.regular = false) :
    choose cfg align d = if want ≤ hw then some want else if 1024 ≤ hw then some 1024 else none := by
  have key : (if hw = 0 then none else if hw < want then (if hw < 1024 then none else if want < 1024 then none else some 1024)
      else some want) = if want ≤ hw then some want else if 1024 ≤ hw then some 1024 else none := by
    have := hs.pos
    rw [if_neg (by omega)]
    by_cases h1 : want ≤ hw
    · rw [if_neg (by omega), if_pos h1]
    · rw [if_pos (by omega), if_neg h1]
      by_cases h2 : 1024 ≤ hw
      · rw [if_neg (by omega), if_neg (by omega), if_pos h2]
      · rw [if_pos (by omega), if_neg h2]
  unfold choose
  rw [hr, if_neg Bool.false_ne_true]
  rcases h with ⟨rfl, rfl⟩ | ⟨rfl, h1, h2⟩
  · dsimp only
    rw [hs.text]
    dsimp only
    rw [read_shown hs.small]
    exact key
  · dsimp only
    rw [if_neg (by omega), hs.text, show ((want : Int) % 4294967296).toNat = want by omega]
    dsimp only
    rw [read_shown hs.small]
    exact key

/-- The value is never more than the hardware can do. -/
theorem choose_le {cfg : Config.Sectors} {align hw v : Nat} {d : Dev} (hs : Shows d hw) (h : choose cfg align d = some v) : v ≤ hw := by
  unfold choose at h
  split at h
  · exact nomatch h
  · dsimp only at h
    split at h
    · next _ set t _ ht =>
      rw [hs.text] at ht
      cases ht
      rw [read_shown hs.small] at h
      repeat' split at h
      all_goals first | (cases h; done) | (cases h; omega)
    · exact nomatch h

/-! ## Runs -/

theorem write_text (d : Dev) (v : Nat) : (d.write v).1.text = d.text ∧ (d.write v).1.regular = d.regular ∧ (d.write v).1.takes = d.takes := by
  unfold Dev.write
  split <;> exact ⟨rfl, rfl, rfl⟩

theorem write_max {d : Dev} {v hw : Nat} (h : d.max ≤ hw) (hv : v ≤ hw) : (d.write v).1.max ≤ hw := by
  unfold Dev.write
  split
  · exact hv
  · exact h

/-- The devices and the queue respect the hardware. -/
structure Inv (hw : Nat → Nat) (s : State) : Prop where
  shows : ∀ i, Shows (s.dev i) (hw i)
  max : ∀ i, (s.dev i).max ≤ hw i
  queue : ∀ m ∈ s.queue, m.2 ≤ hw m.1

theorem inv_put {hw : Nat → Nat} {s : State} (h : Inv hw s) {i v : Nat} (hv : v ≤ hw i) : Inv hw (s.put i ((s.dev i).write v).1) := by
  refine ⟨fun j => ?_, fun j => ?_, h.queue⟩
  · show Shows (if j = i then _ else _) _
    split
    · next e => subst e; have := h.shows j; exact ⟨(write_text _ _).1.trans this.text, this.pos, this.small⟩
    · exact h.shows j
  · show (if j = i then _ else _ : Dev).max ≤ _
    split
    · next e => subst e; exact write_max (h.max j) hv
    · exact h.max j

theorem inv_told {hw : Nat → Nat} {s : State} (h : Inv hw s) (l : List (Nat × Nat)) : Inv hw { s with told := l } := ⟨h.shows, h.max, h.queue⟩

theorem step_inv {root : Bool} {cfg : Config.Sectors} {hw : Nat → Nat} {s : State} (h : Inv hw s) (e : Ev)
    (ho : ∀ i v, e = .other i v → v ≤ hw i) : Inv hw (step root cfg s e) := by
  cases e with
  | join i align sent =>
    simp only [step]
    split
    · exact inv_told h _
    · next v hc =>
      have hv := choose_le (h.shows i) hc
      split
      · exact inv_told h _
      · split
        · exact inv_told h _
        · split
          · exact inv_told (inv_put h hv) _
          · split
            · refine ⟨h.shows, h.max, fun m hm => ?_⟩
              rcases List.mem_append.mp hm with hm | hm
              · exact h.queue m hm
              · rw [List.mem_singleton] at hm; rw [hm]; exact hv
            · exact inv_told h _
  | helper =>
    simp only [step]
    split
    · exact h
    · next i v q hq =>
      have := inv_put h (h.queue (i, v) (by rw [hq]; exact List.mem_cons_self))
      exact ⟨this.shows, this.max, fun m hm => h.queue m (by rw [hq]; exact List.mem_cons_of_mem _ hm)⟩
  | other i v => exact inv_put h (ho i v rfl)

/-- **C78, hardware.**  Whatever lockspaces are joined in whatever order, whenever the helper runs and whatever the kernel takes, the daemon
never makes the requests to a device larger than its hardware can do. -/
theorem never_above {root : Bool} {cfg : Config.Sectors} {hw : Nat → Nat} {evs : List Ev} : ∀ {s : State}, (∀ i, Shows (s.dev i) (hw i)) →
    (∀ i, (s.dev i).max ≤ hw i) → (∀ m ∈ s.queue, m.2 ≤ hw m.1) → (∀ i v, Ev.other i v ∈ evs → v ≤ hw i) →
    ∀ i, ((run root cfg s evs).dev i).max ≤ hw i := by
  induction evs with
  | nil => intro s _ h2 _ _; exact h2
  | cons e t ih =>
    intro s h1 h2 h3 h4
    have := step_inv (root := root) (cfg := cfg) ⟨h1, h2, h3⟩ e (fun i v he => h4 i v (by rw [he]; exact List.mem_cons_self))
    exact ih this.shows this.max this.queue fun i v hm => h4 i v (List.mem_cons_of_mem _ hm)

/-- **C78, left alone.**  With `ignore` no device is changed, and a regular file never is. -/
theorem left_alone {root : Bool} {cfg : Config.Sectors} {i : Nat} {evs : List Ev} : ∀ {s : State}, (cfg = .ignore ∨ (s.dev i).regular = true) →
    (∀ m ∈ s.queue, m.1 ≠ i) → (∀ v, Ev.other i v ∉ evs) → (run root cfg s evs).dev i = s.dev i := by
  induction evs with
  | nil => intro s _ _ _; rfl
  | cons e t ih =>
    intro s hc hq ho
    have hnone : ∀ align, choose cfg align (s.dev i) = none := by
      intro align
      unfold choose
      rcases hc with rfl | hr
      · split <;> rfl
      · rw [if_pos hr]
    have hput : ∀ (j v : Nat), j ≠ i → (s.put j ((s.dev j).write v).1).dev i = s.dev i := fun j v hj => if_neg (Ne.symm hj)
    have key : (step root cfg s e).dev i = s.dev i ∧ ∀ m ∈ (step root cfg s e).queue, m.1 ≠ i := by
      cases e with
      | join j align sent =>
        by_cases hj : j = i
        · subst hj
          simp only [step, hnone]
          exact ⟨trivial, hq⟩
        · simp only [step]
          split
          · exact ⟨rfl, hq⟩
          · split
            · exact ⟨rfl, hq⟩
            · split
              · exact ⟨rfl, hq⟩
              · split
                · exact ⟨hput j _ hj, hq⟩
                · split
                  · refine ⟨rfl, fun m hm => ?_⟩
                    rcases List.mem_append.mp hm with hm | hm
                    · exact hq m hm
                    · rw [List.mem_singleton] at hm; rw [hm]; exact hj
                  · exact ⟨rfl, hq⟩
      | helper =>
        simp only [step]
        split
        · exact ⟨rfl, hq⟩
        · next j v q hqq =>
          have hj : j ≠ i := hq (j, v) (by rw [hqq]; exact List.mem_cons_self)
          exact ⟨hput j v hj, fun m hm => hq m (by rw [hqq]; exact List.mem_cons_of_mem _ hm)⟩
      | other j v =>
        have hj : j ≠ i := by rintro rfl; exact ho v List.mem_cons_self
        exact ⟨hput j v hj, hq⟩
    have := ih (s := step root cfg s e) (hc.imp id (fun h => by rw [key.1]; exact h)) key.2 (fun v hm => ho v (List.mem_cons_of_mem _ hm))
    exact this.trans key.1

/-- **C78, set as asked.**  If the hardware can do it and the kernel takes it, the device has the size asked for: at once if the daemon is
root, and when the helper has taken the message if not.  The status shows it. -/
theorem set_partial {root : Bool} {cfg : Config.Sectors} {s : State} {i align want hw : Nat} (ha : Asked cfg align want) (hs : Shows (s.dev i) hw)
    (hr : (s.dev i).regular = false) (hsh : (s.dev i).shown = true) (hw' : want ≤ hw) (ht : (s.dev i).takes want = true) (hq : s.queue = []) :
    ((run root cfg s [.join i align true, .helper]).dev i).max = want ∧
      (run root cfg s [.join i align true, .helper]).told = (i, want) :: s.told ∧
      (root = true → ((run root cfg s [.join i align true]).dev i).max = want) := by
  have hc : choose cfg align (s.dev i) = some want := by rw [choose_asked ha hs hr, if_pos hw']
  have hwr : (s.dev i).write want = ({ s.dev i with max := want }, true) := by unfold Dev.write; rw [if_pos ht]
  show ((step root cfg (step root cfg s (.join i align true)) .helper).dev i).max = want ∧
    (step root cfg (step root cfg s (.join i align true)) .helper).told = _ ∧
    (root = true → ((step root cfg s (.join i align true)).dev i).max = want)
  by_cases hm : (s.dev i).max = want
  · simp only [step, hc, hsh, hm, hq]
    exact ⟨hm, rfl, fun _ => hm⟩
  · cases root with
    | true =>
      simp only [step, hc, hsh, hm, hq, hwr, State.put]
      simp
    | false =>
      simp only [step, hc, hsh, hm, hq, State.put]
      simp [hwr]

/-- A daemon that is root shows a size only if the device has it. -/
theorem told_partial {cfg : Config.Sectors} {s : State} {i align v : Nat} {sent : Bool}
    (h : (step true cfg s (.join i align sent)).told = (i, v) :: s.told) (hv : v ≠ 0) : ((step true cfg s (.join i align sent)).dev i).max = v := by
  simp only [step] at h ⊢
  have inj : ∀ {a b : Nat}, (i, a) :: s.told = (i, b) :: s.told → a = b := fun h => congrArg Prod.snd (List.cons.inj h).1
  cases hc : choose cfg align (s.dev i) with
  | none => simp only [hc] at h; exact absurd (inj h).symm hv
  | some w =>
    simp only [hc] at h ⊢
    by_cases h1 : (s.dev i).shown = false
    · rw [if_pos h1] at h; exact absurd (inj h).symm hv
    rw [if_neg h1] at h ⊢
    by_cases h2 : (s.dev i).max = w
    · rw [if_pos h2] at h ⊢; exact h2.trans (inj h)
    rw [if_neg h2, if_pos trivial] at h ⊢
    have := inj h
    show (if i = i then _ else _ : Dev).max = v
    rw [if_pos rfl]
    unfold Dev.write at this ⊢
    by_cases h3 : (s.dev i).takes w = true
    · rw [if_pos h3] at this ⊢; exact this
    · rw [if_neg h3] at this; exact absurd this.symm hv

/-! ## Violations -/

/-- "Set to a number to set a specific number of KB for all lockspace disks" (`src/sanlock.8:1377`): if the hardware cannot do the number, the
daemon sets 1024 although the device did more before. -/
theorem number_violated {s : State} {i align want hw : Nat} (h0 : hw < want) (h1 : want < 4294967296) (h2 : 1024 < hw) (hs : Shows (s.dev i) hw)
    (hr : (s.dev i).regular = false) (hsh : (s.dev i).shown = true) (hm : (s.dev i).max = hw) (ht : (s.dev i).takes 1024 = true) (sent : Bool) :
    ((step true (.num want) s (.join i align sent)).dev i).max = 1024 := by
  have hc : choose (.num want) align (s.dev i) = some 1024 := by
    rw [choose_asked (.inr ⟨rfl, by omega, h1⟩) hs hr, if_neg (by omega), if_pos (by omega)]
  have hwr : (s.dev i).write 1024 = ({ s.dev i with max := 1024 }, true) := by unfold Dev.write; rw [if_pos ht]
  have hne : ¬ hw = 1024 := by omega
  simp only [step, hc, hsh, hm, hwr, State.put, hne]
  simp

/-- Without root the status shows a size that the kernel has not taken and never will, no matter how often the helper runs. -/
theorem helper_violated {cfg : Config.Sectors} {s : State} {i align want hw n : Nat} (ha : Asked cfg align want) (hs : Shows (s.dev i) hw)
    (hr : (s.dev i).regular = false) (hsh : (s.dev i).shown = true) (hw' : want ≤ hw) (ht : (s.dev i).takes want = false) (hq : s.queue = [])
    (hm : (s.dev i).max ≠ want) :
    (run false cfg s (.join i align true :: List.replicate n .helper)).told = (i, want) :: s.told ∧
      ((run false cfg s (.join i align true :: List.replicate n .helper)).dev i).max = (s.dev i).max := by
  have hc : choose cfg align (s.dev i) = some want := by rw [choose_asked ha hs hr, if_pos hw']
  have hj : step false cfg s (.join i align true) = { s with queue := [(i, want)], told := (i, want) :: s.told } := by
    simp only [step, hc, hsh, hm, hq]
    simp
  have hwr : (s.dev i).write want = (s.dev i, false) := by unfold Dev.write; rw [if_neg (by rw [ht]; exact Bool.false_ne_true)]
  have idle : ∀ (n : Nat) (t : State), t.queue = [] → run false cfg t (List.replicate n .helper) = t := by
    intro n
    induction n with
    | zero => intro t _; rfl
    | succ n ih =>
      intro t h
      show run false cfg (step false cfg t .helper) (List.replicate n .helper) = t
      have : step false cfg t .helper = t := by simp only [step, h]
      rw [this, ih t h]
  show (run false cfg (step false cfg s (.join i align true)) _).told = _ ∧ ((run false cfg (step false cfg s (.join i align true)) _).dev i).max = _
  rw [hj]
  cases n with
  | zero => exact ⟨rfl, rfl⟩
  | succ n =>
    show (run false cfg (step false cfg _ .helper) (List.replicate n .helper)).told = _ ∧
      ((run false cfg (step false cfg _ .helper) (List.replicate n .helper)).dev i).max = _
    simp only [step]
    rw [idle n _ rfl]
    refine ⟨rfl, ?_⟩
    show (if i = i then _ else _ : Dev).max = _
    rw [if_pos rfl, hwr]

/-! ## Examples -/

/-- Devices that can do 4096 KB and are set to 1280; the kernel takes 4 to 4096. -/
def exDev : Dev := ⟨false, some (Config.str "4096\n"), true, 1280, fun v => decide (4 ≤ v ∧ v ≤ 4096)⟩

def exState : State := ⟨fun _ => exDev, [], []⟩

theorem ex_shows : Shows exDev 4096 := ⟨by decide +kernel, by decide, by decide⟩

/-- `set_partial`: the default of 1024, as root and not. -/
example (root : Bool) : ((run root (.num (1024 : Nat)) exState [.join 3 1048576 true, .helper]).dev 3).max = 1024 :=
  (set_partial (hw := 4096) (.inr ⟨rfl, by decide, by decide⟩) ex_shows rfl rfl (by decide) (by decide) rfl).1

/-- `never_above`: two lockspaces on one device. -/
example : ((run false .align exState [.join 3 1048576 true, .join 3 8388608 true, .helper, .helper]).dev 3).max ≤ 4096 :=
  never_above (hw := fun _ => 4096) (fun _ => ex_shows) (fun _ => (by decide : 1280 ≤ 4096)) (by simp [exState]) (by simp) 3

/-- `number_violated`: 8192 asked for, 4096 before, 1024 afterwards. -/
example : ((step true (.num (8192 : Nat)) ⟨fun _ => { exDev with max := 4096 }, [], []⟩ (.join 3 1048576 true)).dev 3).max = 1024 :=
  number_violated (hw := 4096) (by decide) (by decide) (by decide) ⟨ex_shows.text, by decide, by decide⟩ rfl rfl rfl (by decide) true

/-- `helper_violated`: 2 KB is a valid number in the configuration, less than a page. -/
example : ((run false (.num (2 : Nat)) exState (.join 3 1048576 true :: List.replicate 5 .helper)).dev 3).max = 1280 :=
  (helper_violated (hw := 4096) (.inr ⟨rfl, by decide, by decide⟩) ex_shows rfl rfl (by decide) (by decide) rfl (by decide)).2

/-- `left_alone` -/
example : (run true .ignore exState [.join 3 1048576 true, .other 4 64]).dev 3 = exDev := left_alone (.inl rfl) (by simp [exState]) (by simp)

end Sanlock.Sectors
