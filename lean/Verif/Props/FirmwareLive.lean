import Verif.Proof.FirmwareLive
import Verif.Props.Firmware
/-!
# C63: the serial driver of the Rust firmware makes progress
-/

set_option linter.unusedSimpArgs false

namespace Sentinel

open Fw

namespace Fw
variable {D : Nat} {e : Nat → Env}

theorem frames_mono (m k : Nat) : frames D e m <+: frames D e (m + k) := by
  induction k with
  | zero => exact List.prefix_refl _
  | succ k ih => exact ih.trans ⟨_, rfl⟩

theorem returned_mono (m k : Nat) : returned D e m <+: returned D e (m + k) := by
  induction k with
  | zero => exact List.prefix_refl _
  | succ k ih => exact ih.trans ⟨_, rfl⟩

theorem cur_le (m : Main) : m.cur.length ≤ m.writing.toList.length := by
  cases m <;> simp [Main.cur, Main.writing]

/-- What has returned and is not on the line is held. -/
theorem held_length (hD : 0 < D) (n : Nat) :
    (returned D e n).length ≤ (frames D e n).length + ((Sys.at_ D e n).soft.hand ++ (Sys.at_ D e n).soft.queue).length := by
  have h1 := congrArg List.length (calls_eq (e := e) hD n)
  have h2 := congrArg List.length (C62_backlog hD e n).2
  have h3 := cur_le (Sys.at_ D e n).soft.main
  simp only [Soft.pend, List.length_append] at h1 h2 ⊢
  unfold writing at h2
  omega

end Fw

/-- **C63** (drain): if the processor goes on executing, and `main` does not stay inside a critical section for
ever, then every byte whose `write_char` has returned gets onto the line.  `main` need not do anything
else, and there is no assumption about how fast the processor is. -/
theorem C63_drain {D : Nat} (hD : 0 < D) {e : Nat → Env} (hact : ∀ n, ∃ m ≥ n, (e m).act.isSome = true)
    (hen : ∀ n, ∃ m ≥ n, (Sys.at_ D e m).soft.main.enabled = true) (n : Nat) :
    ∃ m ≥ n, returned D e n <+: frames D e m := by
  have grow : ∀ l ≤ (returned D e n).length, ∃ m ≥ n, l ≤ (frames D e m).length := by
    intro l
    induction l with
    | zero => exact fun _ => ⟨n, by omega, by omega⟩
    | succ l ih =>
      intro hl
      obtain ⟨m, hm, hlen⟩ := ih (by omega)
      by_cases hg : l + 1 ≤ (frames D e m).length
      · exact ⟨m, hm, hg⟩
      · obtain ⟨d, rfl⟩ := Nat.exists_eq_add_of_le hm
        have h1 := (returned_mono (D := D) (e := e) n d).length_le
        have h2 := held_length (e := e) hD (n + d)
        have h3 : (Sys.at_ D e (n + d)).soft.hand ++ (Sys.at_ D e (n + d)).soft.queue ≠ [] := by
          intro h; rw [h] at h2; simp at h2; omega
        obtain ⟨m', hm', hs⟩ := held_starts hact hen h3
        obtain ⟨k, rfl⟩ := Nat.exists_eq_add_of_le hm'
        refine ⟨n + d + k + 1, by omega, ?_⟩
        rw [frames_succ hD, List.length_append]
        have h4 := (frames_mono (D := D) (e := e) (n + d) k).length_le
        have h5 := List.length_pos_iff.2 hs
        omega
  obtain ⟨m, hm, hl⟩ := grow _ (Nat.le_refl _)
  refine ⟨m, hm, ?_⟩
  obtain ⟨d, rfl⟩ := Nat.exists_eq_add_of_le hm
  have h1 : returned D e n <+: calls D e (n + d) := by
    rw [(C62_backlog hD e (n + d)).2]
    exact (returned_mono n d).trans (List.prefix_append _ _)
  exact List.prefix_of_prefix_length_le h1 (C62_order hD e (n + d)) hl

namespace Fw
variable {D : Nat} {e : Nat → Env}

theorem main_isr_none (n : Nat) (h : (Sys.at_ D e n).soft.main.enabled = false) : (Sys.at_ D e n).soft.isr = none := by
  by_contra hx
  have := ((inv_at (D := D) e n).isr hx).1
  rw [h] at this; cases this

theorem act_main {n : Nat} {op : Op} (hi : (Sys.at_ D e n).soft.isr = none) (ha : (Sys.at_ D e n).soft.access = none)
    (hop : (e n).act = some op) (hq : (Sys.at_ D e n).soft.main.enabled = false ∨ (Sys.at_ D e n).irq = false) :
    (Sys.at_ D e (n + 1)).soft = (Sys.at_ D e n).soft.mainAct op := by
  rw [soft_succ]
  unfold Sys.softNext
  rw [ha, hop, hi]
  simp only
  rw [if_neg]
  rcases hq with h | h <;> simp [h]

/-- From `flag` the call returns. -/
theorem flag_returns (hact : ∀ n, ∃ m ≥ n, (e m).act.isSome = true) {n : Nat} {b : BitVec 8} {x : Bool}
    (h : (Sys.at_ D e n).soft.main = .flag x b) : ∃ m > n, writing D e m = none := by
  have hi := main_isr_none n (by rw [h]; rfl)
  have ha : (Sys.at_ D e n).soft.access = none := by simp [Soft.access, hi, h, Main.access]
  obtain ⟨m, op, h1, h2, h3⟩ := wait_act hact ha
  refine ⟨m + 1, by omega, ?_⟩
  unfold writing
  rw [act_main (by rw [h3]; exact hi) (by rw [h3]; exact ha) h2 (.inl (by rw [h3, h]; rfl)), h3]
  simp [Soft.mainAct, h, back_writing]

theorem send_returns (hact : ∀ n, ∃ m ≥ n, (e m).act.isSome = true) {n : Nat} {b : BitVec 8} {x : Bool}
    (h : (Sys.at_ D e n).soft.main = .send x b) : ∃ m > n, writing D e m = none := by
  have hi := main_isr_none n (by rw [h]; rfl)
  have ha : (Sys.at_ D e n).soft.access = some (.serTx b) := by simp [Soft.access, hi, h, Main.access]
  obtain ⟨m, d, h1, h2⟩ := access_done ha
  have h3 : (Sys.at_ D e m).soft.main = .flag x b := by rw [h2]; simp [Soft.done, hi, h, Main.done]
  obtain ⟨k, hk, hw⟩ := flag_returns hact h3
  exact ⟨k, by omega, hw⟩

theorem crit_next (hact : ∀ n, ∃ m ≥ n, (e m).act.isSome = true) {n : Nat} {b : BitVec 8} {x : Bool}
    (h : (Sys.at_ D e n).soft.main = .crit x b) :
    (∃ m > n, writing D e m = none) ∨
      capacity ≤ (Sys.at_ D e n).soft.queue.length ∧ ∃ m > n, (Sys.at_ D e m).soft.main = .retry x b := by
  have hi := main_isr_none n (by rw [h]; rfl)
  have ha : (Sys.at_ D e n).soft.access = none := by simp [Soft.access, hi, h, Main.access]
  obtain ⟨m, op, h1, h2, h3⟩ := wait_act hact ha
  have h4 := act_main (by rw [h3]; exact hi) (by rw [h3]; exact ha) h2 (.inl (by rw [h3, h]; rfl))
  rw [h3, Soft.mainAct, h] at h4
  simp only at h4
  split at h4
  · split at h4
    · exact .inl ⟨m + 1, by omega, by unfold writing; rw [h4]; exact back_writing x⟩
    · exact .inr ⟨by omega, m + 1, by omega, by rw [h4]⟩
  · obtain ⟨k, hk, hw⟩ := send_returns hact (n := m + 1) (b := b) (x := x) (by rw [h4])
    exact .inl ⟨k, by omega, hw⟩

/-- `main` is in `write_char`, called outside critical sections. -/
def Main.Plain (b : BitVec 8) (m : Main) : Prop :=
  m = .retry false b ∨ m = .crit false b ∨ m = .send false b ∨ m = .flag false b

theorem plain_step {n : Nat} {b : BitVec 8} (h : (Sys.at_ D e n).soft.main.Plain b) (hw : writing D e (n + 1) ≠ none) :
    (Sys.at_ D e (n + 1)).soft.main.Plain b := by
  have ef : (Sys.at_ D e (n + 1)).soft = (Sys.at_ D e n).softNext (e n).act := rfl
  unfold writing at hw
  rw [ef] at hw ⊢
  clear ef
  generalize Sys.at_ D e n = s at *
  obtain ⟨⟨q, busy, box, cnt, main, isr⟩, ser, tm, ld⟩ := s
  simp only at h
  revert hw
  unfold Sys.softNext
  split
  · split
    · intro hw
      rcases isr with _ | i
      · rcases h with rfl | rfl | rfl | rfl <;> simp [Soft.done, Main.done, Main.Plain]
      · exact h
    · exact fun _ => h
  · cases hact : (e n).act with
    | none => exact fun _ => h
    | some op =>
      rcases isr with _ | i
      · simp only
        split
        · exact fun _ => h
        · rcases h with rfl | rfl | rfl | rfl
          · simp [Soft.mainAct, Main.Plain]
          · simp only [Soft.mainAct]
            split
            · split
              · exact fun hw => absurd (back_writing false) hw
              · simp [Main.Plain]
            · simp [Main.Plain]
          · simp [Soft.mainAct, Main.Plain]
          · exact fun hw => absurd (back_writing false) hw
      · have : ∀ f : Soft, (f.isrAct i).main = f.main := by
          intro f
          cases i <;> simp [Soft.isrAct] <;> (try split) <;> (try split) <;> rfl
        simp only
        rw [this]
        exact fun _ => h

/-- A call from outside critical sections. -/
theorem app_call {n : Nat} {b : BitVec 8} (h : (Sys.at_ D e n).soft.main = .app) (hw : writing D e (n + 1) = some b) :
    (Sys.at_ D e (n + 1)).soft.main.Plain b := by
  have ef : (Sys.at_ D e (n + 1)).soft = (Sys.at_ D e n).softNext (e n).act := rfl
  unfold writing at hw
  rw [ef] at hw ⊢
  clear ef
  generalize Sys.at_ D e n = s at *
  obtain ⟨⟨q, busy, box, cnt, main, isr⟩, ser, tm, ld⟩ := s
  simp only at h
  subst h
  revert hw
  unfold Sys.softNext
  split
  · split
    · rcases isr with _ | i <;> exact nofun
    · exact nofun
  · cases hact : (e n).act with
    | none => exact nofun
    | some op =>
      rcases isr with _ | i
      · simp only
        split
        · exact nofun
        · cases op <;> simp [Soft.mainAct, Soft.opAct, Main.writing, Main.Plain]
      · have : ∀ f : Soft, (f.isrAct i).main = f.main := by
          intro f
          cases i <;> simp [Soft.isrAct] <;> (try split) <;> (try split) <;> rfl
        simp only
        rw [this]
        exact nofun

end Fw

/-- `write_char`, called outside critical sections, returns, if `main` gets to run again and again. -/
theorem Fw.plain_returns {D : Nat} (hD : 0 < D) {e : Nat → Env}
    (hmain : ∀ n, ∃ m ≥ n, (e m).act.isSome = true ∧ (Sys.at_ D e m).soft.isr = none ∧
      ((Sys.at_ D e m).soft.main.enabled = false ∨ (Sys.at_ D e m).irq = false))
    {n : Nat} {b : BitVec 8} (h1 : (Sys.at_ D e (n + 1)).soft.main.Plain b) :
    ∃ m > n, writing D e m = none := by
  by_contra hno
  have hw : ∀ m > n, writing D e m ≠ none := fun m hm hx => hno ⟨m, hm, hx⟩
  have hact : ∀ n, ∃ m ≥ n, (e m).act.isSome = true := fun n => by
    obtain ⟨m, h1, h2, -⟩ := hmain n; exact ⟨m, h1, h2⟩
  have hp : ∀ m > n, (Sys.at_ D e m).soft.main.Plain b := by
    intro m hm
    obtain ⟨d, rfl⟩ := Nat.exists_eq_add_of_le hm
    clear hm
    induction d with
    | zero => exact h1
    | succ d ih => exact plain_step ih (hw (n + 1 + d + 1) (by omega))
  -- again and again it is before the critical section
  have hretry : ∀ m > n, ∃ k ≥ m, (Sys.at_ D e k).soft.main = .retry false b := by
    intro m hm
    rcases hp m hm with h | h | h | h
    · exact ⟨m, by omega, h⟩
    · rcases crit_next hact h with ⟨k, hk, hx⟩ | ⟨-, k, hk, hx⟩
      · exact absurd hx (hw k (by omega))
      · exact ⟨k, by omega, hx⟩
    · obtain ⟨k, hk, hx⟩ := send_returns hact h
      exact absurd hx (hw k (by omega))
    · obtain ⟨k, hk, hx⟩ := flag_returns hact h
      exact absurd hx (hw k (by omega))
  have hen : ∀ n, ∃ m ≥ n, (Sys.at_ D e m).soft.main.enabled = true := by
    intro m
    obtain ⟨k, hk, hx⟩ := hretry (max m (n + 1)) (by omega)
    exact ⟨k, by omega, by rw [hx]; rfl⟩
  -- everything before it drains
  obtain ⟨m1, hm1, hdr⟩ := C63_drain hD hact hen (n + 1)
  have hret : ∀ d, returned D e (n + 1 + d) = returned D e (n + 1) := by
    intro d
    induction d with
    | zero => rfl
    | succ d ih =>
      rw [← Nat.add_assoc, returned, ih]
      obtain ⟨x, hx⟩ := Option.ne_none_iff_exists'.1 (hw (n + 1 + d) (by omega))
      obtain ⟨y, hy⟩ := Option.ne_none_iff_exists'.1 (hw (n + 1 + d + 1) (by omega))
      rw [hx, hy]; simp
  have hq : ∀ m ≥ m1, (Sys.at_ D e m).soft.main = .crit false b → (Sys.at_ D e m).soft.queue = [] := by
    intro m hm hc
    obtain ⟨d, rfl⟩ := Nat.exists_eq_add_of_le hm1
    obtain ⟨d', rfl⟩ := Nat.exists_eq_add_of_le hm
    have g1 := hret (d + d')
    rw [← Nat.add_assoc] at g1
    have g2 := congrArg List.length (calls_eq (e := e) hD (n + 1 + d + d'))
    rw [(C62_backlog hD e (n + 1 + d + d')).2, g1] at g2
    have g3 := (frames_mono (D := D) (e := e) (n + 1 + d) d').length_le
    have g4 := hdr.length_le
    have g5 : writing D e (n + 1 + d + d') = some b := by unfold writing; rw [hc]; rfl
    have g6 : (Sys.at_ D e (n + 1 + d + d')).soft.main.cur = [b] := by rw [hc]; rfl
    simp only [Soft.pend, g5, g6, List.length_append, Option.toList, List.length_singleton] at g2
    apply List.eq_nil_of_length_eq_zero
    omega
  -- so the next time there is room
  obtain ⟨k, hk, hr⟩ := hretry (max m1 (n + 1)) (by omega)
  obtain ⟨j, hj, ha, hi, hirq⟩ := hmain k
  have hcrit : ∃ l ≥ m1, l > n ∧ (Sys.at_ D e l).soft.main = .crit false b := by
    rcases hp j (by omega) with h | h | h | h
    · obtain ⟨op, hop⟩ := Option.isSome_iff_exists.1 ha
      have := act_main hi (by simp [Soft.access, hi, h, Main.access]) hop (.inr (hirq.resolve_left (by rw [h]; nofun)))
      exact ⟨j + 1, by omega, by omega, by rw [this]; simp [Soft.mainAct, h]⟩
    · exact ⟨j, by omega, by omega, h⟩
    · obtain ⟨k, hk, hx⟩ := send_returns hact h
      exact absurd hx (hw k (by omega))
    · obtain ⟨k, hk, hx⟩ := flag_returns hact h
      exact absurd hx (hw k (by omega))
  obtain ⟨l, hl, hln, hlc⟩ := hcrit
  rcases crit_next hact hlc with ⟨k, hk, hx⟩ | ⟨hfull, -⟩
  · exact hw k (by omega) hx
  · rw [hq l hl hlc] at hfull
    exact absurd hfull (by decide)

/-- **C63** (`write_char` returns): if the processor gets to run `main` again and again (it acts in cycles in which
the handler is not running, and no interrupt is pending or interrupts are disabled), then every call of `write_char` from outside
critical sections returns. -/
theorem C63_return {D : Nat} (hD : 0 < D) {e : Nat → Env}
    (hmain : ∀ n, ∃ m ≥ n, (e m).act.isSome = true ∧ (Sys.at_ D e m).soft.isr = none ∧
      ((Sys.at_ D e m).soft.main.enabled = false ∨ (Sys.at_ D e m).irq = false))
    {n : Nat} {b : BitVec 8} (h0 : (Sys.at_ D e n).soft.main = .app) (h : writing D e (n + 1) = some b) :
    ∃ m > n, writing D e m = none :=
  plain_returns hD hmain (app_call h0 h)

/-- **C63** (inside a critical section): `write_char` called from inside a critical section when the queue is
full never returns: what would make room is the interrupt that the critical section keeps out. -/
theorem C63_stuck {D : Nat} {e : Nat → Env} {n : Nat} {b : BitVec 8}
    (h : (Sys.at_ D e n).soft.main = .retry true b) (hfull : (Sys.at_ D e n).soft.queue.length = 63) (k : Nat) :
    writing D e (n + k) = some b := by
  have hb : (Sys.at_ D e n).soft.busy = true :=
    held_busy (inv_at e n) (fun hx => by
      have := (List.append_eq_nil_iff.1 hx).2
      rw [this] at hfull; cases hfull)
  have key : ((Sys.at_ D e (n + k)).soft.main = .retry true b ∨ (Sys.at_ D e (n + k)).soft.main = .crit true b) ∧
      (Sys.at_ D e (n + k)).soft.queue.length = 63 ∧ (Sys.at_ D e (n + k)).soft.busy = true := by
    induction k with
    | zero => exact ⟨.inl h, hfull, hb⟩
    | succ k ih =>
      obtain ⟨h1, h2, h3⟩ := ih
      have hen : (Sys.at_ D e (n + k)).soft.main.enabled = false := by rcases h1 with h | h <;> rw [h] <;> rfl
      have hi := main_isr_none (D := D) (e := e) (n + k) hen
      have ha : (Sys.at_ D e (n + k)).soft.access = none := by
        rcases h1 with h | h <;> simp [Soft.access, hi, h, Main.access]
      cases hact : (e (n + k)).act with
      | none =>
        have : (Sys.at_ D e (n + k + 1)).soft = (Sys.at_ D e (n + k)).soft := by
          rw [soft_succ]; unfold Sys.softNext; rw [ha, hact]
        rw [← Nat.add_assoc, this]
        exact ⟨h1, h2, h3⟩
      | some op =>
        rw [← Nat.add_assoc, act_main hi ha hact (.inl hen)]
        rcases h1 with h | h
        · simp only [Soft.mainAct, h]
          exact ⟨.inr trivial, h2, h3⟩
        · simp only [Soft.mainAct, h, h3, if_true]
          rw [if_neg (by rw [h2]; decide)]
          exact ⟨.inl rfl, h2, rfl⟩
  unfold writing
  rcases key.1 with h | h <;> rw [h] <;> rfl

/-! ## Examples -/

deriving instance DecidableEq for Fw.Main
deriving instance DecidableEq for Fw.Isr

/-- `main` writes 0x41 as fast as it can; from cycle 207 on it does so inside a critical section. -/
def fwDemo (k : Nat) : Env := { act := some (if k = 207 then .lock else .write 0x41#8) }

/-- With the divisor of the source, that ends with a full queue inside the critical section, from where
`write_char` never returns (`C63_stuck`). -/
example : let s := Sys.at_ 1250 fwDemo 209
    (match s.soft.main with | .retry true b => b == 0x41#8 | _ => false) = true ∧ s.soft.queue.length = 63 := by
  decide +kernel

/-- `main` writes 0x41, from cycle 30 on, and is idle before and afterwards; the processor acts in every
cycle. -/
def fwQuiet (k : Nat) : Env := { act := some (if k = 30 then .write 0x41#8 else .other) }

namespace Fw

/-- Nothing is going on but the timer. -/
structure Quiet (s : Sys) : Prop where
  main : s.soft.main = .app
  queue : s.soft.queue = []
  busy : s.soft.busy = false
  tx : s.ser.tx.count = 0 ∧ s.ser.txPrev = true ∧ s.ser.txIrq = false
  rx : s.ser.rx.count = 0 ∧ s.ser.rx.rdy = false ∧ s.ser.rxPrev = false ∧ s.ser.rxIrq = false
  isr : match s.soft.isr with
    | none => s.timer.prescalar.toNat ≤ 16384 ∧ s.timer.ack = false ∧ s.ser.ack = false
    | some .enter => s.timer.prescalar = 16385#15 ∧ s.timer.ack = false ∧ s.ser.ack = false
    | some .rdTimer => ((s.timer.prescalar = 16386#15 ∧ s.timer.ack = false) ∨ (s.timer.prescalar = 3#15 ∧ s.timer.ack = true)) ∧
        s.ser.ack = false
    | some (.gotTimer _) => s.timer.prescalar = 4#15 ∧ s.timer.ack = false ∧ s.ser.ack = false
    | some .rdInt => ((s.timer.prescalar = 5#15 ∧ s.ser.ack = false) ∨
        (s.timer.prescalar = 6#15 ∧ s.ser.ack = true ∧ s.ser.datR = 0#8)) ∧ s.timer.ack = false
    | some (.gotInt v) => s.timer.prescalar = 7#15 ∧ s.timer.ack = false ∧ s.ser.ack = false ∧ v = 0#8
    | some (.tx v) => s.timer.prescalar = 8#15 ∧ s.timer.ack = false ∧ s.ser.ack = false ∧ v = 0#8
    | some .leave => s.timer.prescalar = 9#15 ∧ s.timer.ack = false ∧ s.ser.ack = false
    | _ => False

theorem quiet_step {D : Nat} {s : Sys} (h : Quiet s) : Quiet (s.step D { act := some .other }) := by
  obtain ⟨h1, h2, h3, ⟨t1, t2, t3⟩, ⟨r1, r2, r3, r4⟩, h6⟩ := h
  obtain ⟨⟨q, busy, box, cnt, main, isr⟩, ⟨tx, rx, datR, ack, rxIrq, rxPrev, txIrq, txPrev⟩, ⟨p, tdat, tack⟩, ld⟩ := s
  simp only at *
  subst h1 h2 h3 t2 t3 r3 r4
  have e0 : ∀ a : Option Access, (∀ b, a ≠ some (.serTx b)) → (UartTx.step D tx
      (WbSerial.txRdy ⟨tx, rx, datR, ack, false, false, false, true⟩ (serReq a)) (byteBits (serReq a).datW)) = tx := by
    intro a ha
    rw [txRdy_eq, UartTx.step, if_pos t1, if_neg]
    rcases a with _ | (_ | _ | _ | b | _ | _) <;> simp at ha ⊢
  have e1 : ∀ b : Bool, (UartRx.step D rx true b).count = 0 ∧ (UartRx.step D rx true b).rdy = false := by
    intro b
    simp only [UartRx.step, r1, if_true]
    cases b <;> simp [r1, r2]
  have ta : tx.ack = true := by simp [UartTx.ack, t1]
  have hw : ∀ a : Option Access, (∀ b, a ≠ some (.serTx b)) → ∀ s', s' =
      WbSerial.step D ⟨tx, rx, datR, ack, false, false, false, true⟩ (serReq a) true →
      (s'.tx.count = 0 ∧ s'.txPrev = true ∧ s'.txIrq = false) ∧
      (s'.rx.count = 0 ∧ s'.rx.rdy = false ∧ s'.rxPrev = false ∧ s'.rxIrq = false) := by
    rintro a ha _ rfl
    refine ⟨⟨?_, ta, ?_⟩, ⟨(e1 _).1, (e1 _).2, r2, ?_⟩⟩
    · show (UartTx.step _ _ _ _).count = 0
      rw [e0 a ha]; exact t1
    · show (if _ then _ else if _ then _ else _) = _
      simp
    · show (if _ then _ else if _ then _ else _) = _
      simp [r2]
  have hirq : ∀ p : BitVec 15, (p.getLsbD 14 = true) ↔ 16384 ≤ p.toNat := by
    intro p
    rw [BitVec.getLsbD, Nat.testBit_eq_decide_div_mod_eq, decide_eq_true_iff]
    have := p.isLt
    omega
  rcases isr with _ | i
  · obtain ⟨g1, g2, g3⟩ := h6
    subst g2 g3
    obtain ⟨w1, w2⟩ := hw none nofun _ rfl
    by_cases hp : p.toNat = 16384
    · have hp' : p = 16384#15 := BitVec.eq_of_toNat_eq hp
      subst hp'
      refine ⟨?_, ?_, ?_, w1, w2, ?_⟩ <;>
        simp [Sys.step, Sys.softNext, Soft.access, Main.access, Sys.irq, WbTimer.irq, Main.enabled, WbTimer.step, Sys.timerSees, timerReq, WbSerial.step, serReq]
    · have hq : p.getLsbD 14 = false := by
        rw [← Bool.not_eq_true, hirq]; omega
      refine ⟨?_, ?_, ?_, w1, w2, ?_⟩ <;>
        simp [-BitVec.getLsbD_eq_getElem, Sys.step, Sys.softNext, Soft.access, Main.access, Sys.irq, WbTimer.irq, Main.enabled, WbTimer.step, Sys.timerSees, timerReq, WbSerial.step, serReq, hq,
          WbSerial.irq, Soft.mainAct, Soft.opAct]
      omega
  · cases i <;> simp only at h6
    case enter | gotTimer v | gotInt v | tx v | leave =>
      obtain ⟨w1, w2⟩ := hw none nofun _ rfl
      obtain ⟨g1, g2, g3⟩ := h6
      subst g1 g2
      refine ⟨?_, ?_, ?_, w1, w2, ?_⟩ <;>
        simp [Sys.step, Sys.softNext, Soft.access, Isr.access, Soft.isrAct, WbTimer.irq, WbTimer.step, Sys.timerSees, timerReq, WbSerial.step, serReq, g3]
    case rdTimer =>
      obtain ⟨w1, w2⟩ := hw (some .timer) nofun _ rfl
      rcases h6 with ⟨⟨g1, g2⟩ | ⟨g1, g2⟩, g3⟩ <;> subst g1 g2 g3 <;>
      refine ⟨?_, ?_, ?_, w1, w2, ?_⟩ <;>
        simp [Sys.step, Sys.softNext, Soft.access, Isr.access, Soft.done, Isr.done, Sys.reply, WbTimer.irq, WbTimer.step, Sys.timerSees, timerReq, WbSerial.step, serReq]
    case rdInt =>
      obtain ⟨w1, w2⟩ := hw (some .serInt) nofun _ rfl
      rcases h6 with ⟨⟨g1, g2⟩ | ⟨g1, g2, g4⟩, g3⟩ <;> subst g1 g2 g3 <;> (try subst g4) <;>
      refine ⟨?_, ?_, ?_, w1, w2, ?_⟩ <;>
        simp [Sys.step, Sys.softNext, Soft.access, Isr.access, Soft.done, Isr.done, Sys.reply, WbTimer.irq, WbTimer.step, Sys.timerSees, timerReq, WbSerial.step, serReq,
          WbSerial.irqRead]

theorem quiet_leave {D : Nat} {s : Sys} {i : Isr} (h : Quiet s) (hi : s.soft.isr = some i)
    (hn : (s.step D { act := some .other }).soft.isr = none) : (s.step D { act := some .other }).irq = false := by
  have hq := quiet_step (D := D) h
  have h6 := h.isr
  obtain ⟨⟨q, busy, box, cnt, main, isr⟩, ser, ⟨p, tdat, tack⟩, ld⟩ := s
  simp only at hi
  subst hi
  have hl : i = .leave := by
    cases i <;> simp [Sys.step, Sys.softNext, Soft.access, Isr.access, Soft.isrAct, Soft.done] at hn ⊢ <;>
      (revert hn; (try split) <;> (try split) <;> simp)
  subst hl
  simp only at h6
  obtain ⟨g1, g2, g3⟩ := h6
  subst g1
  simp only [Sys.irq, WbSerial.irq, hq.tx.2.2, hq.rx.2.2.2]
  simp [Sys.step, WbTimer.step, WbTimer.irq, Soft.access, Isr.access, Sys.timerSees, timerReq]

theorem quiet_at (n : Nat) : Quiet (Sys.at_ 4 fwQuiet (100 + n)) := by
  induction n with
  | zero =>
    refine ⟨by decide +kernel, by decide +kernel, by decide +kernel, by decide +kernel, by decide +kernel, ?_⟩
    have : (Sys.at_ 4 fwQuiet (100 + 0)).soft.isr = none := by decide +kernel
    rw [this]
    decide +kernel
  | succ n ih =>
    have e : fwQuiet (100 + n) = { act := some .other } := by
      unfold fwQuiet
      rw [if_neg (by omega)]
    have := quiet_step (D := 4) ih
    rw [← e] at this
    exact this

/-- In this run `main` gets to act again and again. -/
theorem quiet_main (n : Nat) : ∃ m ≥ n, (fwQuiet m).act.isSome = true ∧ (Sys.at_ 4 fwQuiet m).soft.isr = none ∧
    (Sys.at_ 4 fwQuiet m).irq = false := by
  have hact : ∀ n, ∃ m ≥ n, (fwQuiet m).act.isSome = true := fun n => ⟨n, by omega, rfl⟩
  have q : ∀ m ≥ 100, Quiet (Sys.at_ 4 fwQuiet m) := fun m hm => by
    obtain ⟨d, rfl⟩ := Nat.exists_eq_add_of_le hm
    exact quiet_at d
  have st : ∀ m ≥ 100, Sys.at_ 4 fwQuiet (m + 1) = (Sys.at_ 4 fwQuiet m).step 4 { act := some .other } := fun m hm => by
    have e : fwQuiet m = { act := some .other } := by
      unfold fwQuiet
      rw [if_neg (by omega)]
    rw [← e]; rfl
  -- from a cycle in which the handler is running
  have run : ∀ m ≥ 100, ∀ i, (Sys.at_ 4 fwQuiet m).soft.isr = some i → ∃ k ≥ m, (Sys.at_ 4 fwQuiet k).soft.isr = none ∧
      (Sys.at_ 4 fwQuiet k).irq = false := by
    intro m hm i hi
    obtain ⟨k, hk, hkn, -⟩ := isr_leaves (D := 4) hact m
    obtain ⟨d, rfl⟩ := Nat.exists_eq_add_of_le hk
    clear hk
    induction d generalizing m i with
    | zero => rw [show m + 0 = m from rfl, hi] at hkn; cases hkn
    | succ d ih =>
      cases hn : (Sys.at_ 4 fwQuiet (m + 1)).soft.isr with
      | none =>
        refine ⟨m + 1, by omega, hn, ?_⟩
        rw [st m hm] at hn ⊢
        exact quiet_leave (q m hm) hi hn
      | some j =>
        obtain ⟨k, h1, h2⟩ := ih (m + 1) (by omega) j hn (by rw [show m + 1 + d = m + (d + 1) by omega]; exact hkn)
        exact ⟨k, by omega, h2⟩
  have hm : max n 100 ≥ 100 := by omega
  have hn : max n 100 ≥ n := by omega
  generalize max n 100 = m at hm hn
  cases hi : (Sys.at_ 4 fwQuiet m).soft.isr with
  | some i =>
    obtain ⟨k, h1, h2, h3⟩ := run m hm i hi
    exact ⟨k, by omega, rfl, h2, h3⟩
  | none =>
    cases hq : (Sys.at_ 4 fwQuiet m).irq
    · exact ⟨m, hn, rfl, hi, hq⟩
    · have hen : (Sys.at_ 4 fwQuiet (m + 1)).soft.isr = some .enter := by
        rw [st m hm]
        show (Sys.softNext _ _).isr = _
        have hmain := (q m hm).main
        simp [Sys.softNext, Soft.access, hi, hmain, Main.access, Main.enabled, hq]
      obtain ⟨k, h1, h2, h3⟩ := run (m + 1) (by omega) _ hen
      exact ⟨k, by omega, rfl, h2, h3⟩

end Fw

/-- The hypotheses of `C63_drain` and `C63_return` hold of the run of `fwQuiet` and its call in cycle 30, and
its byte does get onto the line and to a terminal. -/
example : (Sys.at_ 4 fwQuiet 30).soft.main = .app ∧ writing 4 fwQuiet 31 = some 0x41#8 ∧
    (∀ n, ∃ m ≥ n, (fwQuiet m).act.isSome = true ∧ (Sys.at_ 4 fwQuiet m).soft.isr = none ∧ (Sys.at_ 4 fwQuiet m).irq = false) ∧
    (∀ n, ∃ m ≥ n, (Sys.at_ 4 fwQuiet m).soft.main.enabled = true) ∧
    returned 4 fwQuiet 60 = [0x41#8] ∧ frames 4 fwQuiet 60 = [0x41#8] ∧
    shown 4 fwQuiet (fun _ => true) 100 = [0x41#8] ∧ TerminalKeepsUp 4 fwQuiet (fun _ => true) := by
  refine ⟨by decide +kernel, by decide +kernel, quiet_main, fun n => ⟨100 + n, by omega, ?_⟩, by decide +kernel,
    by decide +kernel, by decide +kernel, fun _ _ => .inr rfl⟩
  rw [(quiet_at n).main]; rfl

end Sentinel
