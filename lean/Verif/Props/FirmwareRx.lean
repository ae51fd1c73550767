import Verif.Proof.FirmwareRx
import Verif.Props.FirmwareLive
/-!
# C64: the receive path of the Rust firmware
-/

set_option linter.unusedSimpArgs false

namespace Sentinel

open Fw

/-- **C64** (order): whatever `main` does, whenever interrupts come and however long anything takes: the
characters that the handler stores in `RX` are the characters that the serial port has received, in
that order, from the first on: none is lost, repeated, changed or overtaken, and at most two are on the
way. -/
theorem C64_order {D : Nat} (e : Nat → Env) (n : Nat) :
    stores D e n <+: received D e n ∧ (received D e n).length ≤ (stores D e n).length + 2 := by
  have h := received_eq (D := D) (e := e) n
  refine ⟨⟨_, h.symm⟩, ?_⟩
  rw [h, List.length_append, List.length_append]
  have h1 : (rxHand (Sys.at_ D e n)).length ≤ 1 := by
    unfold rxHand
    split <;> (try split) <;> simp
  have h2 : (rxHeld (Sys.at_ D e n)).length ≤ 1 := by
    unfold rxHeld
    split <;> simp
  omega

namespace Fw
variable {D : Nat} {e : Nat → Env}

theorem stores_mono (m k : Nat) : stores D e m <+: stores D e (m + k) := by
  induction k with
  | zero => exact List.prefix_refl _
  | succ k ih => exact ih.trans ⟨_, rfl⟩

theorem received_mono (m k : Nat) : received D e m <+: received D e (m + k) := by
  induction k with
  | zero => exact List.prefix_refl _
  | succ k ih => exact ih.trans ⟨_, rfl⟩

end Fw

/-- **C64** (progress): if the processor goes on executing, and `main` does not stay inside a critical section
for ever, then every character that the serial port receives gets stored in `RX`. -/
theorem C64_progress {D : Nat} {e : Nat → Env} (hact : ∀ n, ∃ m ≥ n, (e m).act.isSome = true)
    (hen : ∀ n, ∃ m ≥ n, (Sys.at_ D e m).soft.main.enabled = true) (n : Nat) :
    ∃ m ≥ n, received D e n <+: stores D e m := by
  have grow : ∀ l ≤ (received D e n).length, ∃ m ≥ n, l ≤ (stores D e m).length := by
    intro l
    induction l with
    | zero => exact fun _ => ⟨n, by omega, by omega⟩
    | succ l ih =>
      intro hl
      obtain ⟨m, hm, hlen⟩ := ih (by omega)
      by_cases hg : l + 1 ≤ (stores D e m).length
      · exact ⟨m, hm, hg⟩
      · obtain ⟨d, rfl⟩ := Nat.exists_eq_add_of_le hm
        have h1 := (received_mono (D := D) (e := e) n d).length_le
        have h2 := congrArg List.length (received_eq (D := D) (e := e) (n + d))
        rw [List.length_append] at h2
        have h3 : rxHand (Sys.at_ D e (n + d)) ++ rxHeld (Sys.at_ D e (n + d)) ≠ [] := by
          intro h; rw [h] at h2; simp at h2; omega
        obtain ⟨m', hm', hs⟩ := held_stored hact hen h3
        obtain ⟨k, rfl⟩ := Nat.exists_eq_add_of_le hm'
        refine ⟨n + d + k + 1, by omega, ?_⟩
        rw [stores, storing_eq, List.length_append]
        have h4 := (stores_mono (D := D) (e := e) (n + d) k).length_le
        have h5 := List.length_pos_iff.2 hs
        omega
  obtain ⟨m, hm, hl⟩ := grow _ (Nat.le_refl _)
  refine ⟨m, hm, ?_⟩
  obtain ⟨d, rfl⟩ := Nat.exists_eq_add_of_le hm
  exact List.prefix_of_prefix_length_le (received_mono n d) (C64_order e (n + d)).1 hl

namespace Fw
variable {D : Nat} {e : Nat → Env}

theorem opAct_rxBox (f : Soft) (l : Bool) (op : Op) :
    (f.opAct l op).rxBox = if l && (match op with | .clearRx => true | _ => false) then none else f.rxBox := by
  cases op <;> cases l <;> rfl

/-- What happens to `RX` in a cycle. -/
theorem box_step (n : Nat) :
    (∀ d, storing D e n = some d → mailbox D e (n + 1) = some d ∧ (Sys.at_ D e n).soft.main.enabled = true) ∧
    (storing D e n = none → (Clearing D e n → mailbox D e (n + 1) = none) ∧
      (¬ Clearing D e n → mailbox D e (n + 1) = mailbox D e n)) := by
  have hinv := (inv_at (D := D) e n).isr
  unfold storing mailbox Clearing
  rw [soft_succ]
  generalize Sys.at_ D e n = s at *
  generalize (e n).act = act
  obtain ⟨⟨q, busy, box, cnt, main, isr⟩, ser, tm, ld⟩ := s
  simp only at hinv ⊢
  rcases isr with _ | i
  · refine ⟨nofun, fun _ => ?_⟩
    simp only [Sys.softNext, Soft.access]
    cases hm : main.access with
    | some a =>
      have h1 : main ≠ .locked := by rintro rfl; cases hm
      simp only [h1, false_and, false_implies, not_false_eq_true, true_implies, true_and]
      split <;> rfl
    | none =>
      rcases act with _ | op
      · simp
      · simp only
        by_cases hq : (main.enabled && Sys.irq ⟨⟨q, busy, box, cnt, main, none⟩, ser, tm, ld⟩) = true
        · rw [if_pos hq]
          have h1 : main ≠ .locked := by rintro rfl; simp [Main.enabled] at hq
          simp [h1]
        · rw [if_neg hq]
          cases main <;> simp [Soft.mainAct, opAct_rxBox] <;> (try split) <;> (try split) <;> simp_all
  · have hen := (hinv (by simp)).1
    have h1 : main ≠ .locked := by rintro rfl; cases hen
    simp only [h1, false_and, false_implies, not_false_eq_true, true_implies, true_and]
    simp only [Sys.softNext, Soft.access]
    cases hm : i.access with
    | some a =>
      simp only
      generalize Sys.reply _ a = r
      obtain ⟨ok, dat⟩ := r
      cases ok <;> cases i <;> simp_all [Soft.done, Isr.done, Isr.access]
    | none =>
      rcases act with _ | op
      · cases i <;> simp_all
      · cases i <;> simp_all [Soft.isrAct, Isr.access] <;> (try split) <;> (try split) <;> simp_all

end Fw

/-- **C64** (mailbox): what is in `RX` is the last character stored.  It is there from when it is stored until
`main` empties `RX` or the next one is stored. -/
theorem C64_mailbox {D : Nat} (e : Nat → Env) (n : Nat) :
    (∀ d, mailbox D e n = some d → (stores D e n).getLast? = some d) ∧
    (∀ d, storing D e n = some d → mailbox D e (n + 1) = some d) ∧
    (storing D e n = none → mailbox D e (n + 1) = mailbox D e n ∨ Clearing D e n ∧ mailbox D e (n + 1) = none) := by
  obtain ⟨h1, h2⟩ := box_step (D := D) (e := e) n
  refine ⟨?_, fun d h => (h1 d h).1, fun h => ?_⟩
  · clear h1 h2
    induction n with
    | zero => intro d h; cases h
    | succ n ih =>
      intro d h
      obtain ⟨h1, h2⟩ := box_step (D := D) (e := e) n
      rw [stores]
      cases hs : storing D e n with
      | some d' =>
        rw [(h1 d' hs).1] at h
        simpa using h
      | none =>
        simp only [Option.toList, List.append_nil]
        by_cases hc : Clearing D e n
        · rw [(h2 hs).1 hc] at h; cases h
        · rw [(h2 hs).2 hc] at h; exact ih d h
  · by_cases hc : Clearing D e n
    · exact .inr ⟨hc, (h2 h).1 hc⟩
    · exact .inl ((h2 h).2 hc)

/-- **C64** (atomicity): while `main` is inside a critical section, nothing changes `RX` but `main`: the character
that it has seen there is the one that it removes. -/
theorem C64_atomic {D : Nat} (e : Nat → Env) {m k : Nat}
    (h : ∀ i, i ≤ k → (Sys.at_ D e (m + i)).soft.main.enabled = false) (hc : ∀ i, i < k → ¬ Clearing D e (m + i)) :
    mailbox D e (m + k) = mailbox D e m := by
  induction k with
  | zero => rfl
  | succ k ih =>
    rw [← ih (fun i hi => h i (by omega)) (fun i hi => hc i (by omega))]
    obtain ⟨h1, h2⟩ := box_step (D := D) (e := e) (m + k)
    cases hs : storing D e (m + k) with
    | some d =>
      have := (h1 d hs).2
      rw [h k (by omega)] at this; cases this
    | none => exact (h2 hs).2 (hc k (by omega))

/-- **C64** (taking): the characters that `main` takes out of `RX` are among the characters stored, in the same
order, none twice; and if `RX` has always been emptied before the next character is stored, they are all
of them but for the one in `RX`. -/
theorem C64_take {D : Nat} (e : Nat → Env) (n : Nat) :
    (taken D e n).Sublist (stores D e n) ∧
    ((∀ k < n, storing D e k ≠ none → mailbox D e k = none) →
      stores D e n = taken D e n ++ (mailbox D e n).toList) := by
  classical
  have tk : ∀ n, taken D e (n + 1) = taken D e n ++ (if Clearing D e n then (mailbox D e n).toList else []) := by
    intro n
    rw [taken]
    congr 1
    unfold Clearing
    cases (Sys.at_ D e n).soft.main <;> rcases (e n).act with _ | (_ | _ | _ | _ | _ | _ | _ | _) <;> simp
  constructor
  · -- what has been taken, and what is in `RX`
    suffices h : (taken D e n ++ (mailbox D e n).toList).Sublist (stores D e n) from
      (List.sublist_append_left _ _).trans h
    induction n with
    | zero => exact List.Sublist.refl _
    | succ n ih =>
      obtain ⟨h1, h2⟩ := box_step (D := D) (e := e) n
      rw [tk, stores]
      cases hs : storing D e n with
      | some d =>
        have hn : ¬ Clearing D e n := by
          intro hc
          have := (h1 d hs).2
          rw [hc.1] at this; cases this
        rw [if_neg hn, List.append_nil, (h1 d hs).1]
        exact ((List.sublist_append_left _ _).trans ih).append (List.Sublist.refl _)
      | none =>
        by_cases hc : Clearing D e n
        · rw [if_pos hc, (h2 hs).1 hc]; simpa using ih
        · rw [if_neg hc, (h2 hs).2 hc]; simpa using ih
  · intro h
    induction n with
    | zero => rfl
    | succ n ih =>
      have ih := ih (fun k hk => h k (by omega))
      obtain ⟨h1, h2⟩ := box_step (D := D) (e := e) n
      rw [tk, stores, ih]
      cases hs : storing D e n with
      | some d =>
        have hn : ¬ Clearing D e n := by
          intro hc
          have := (h1 d hs).2
          rw [hc.1] at this; cases this
        rw [if_neg hn, List.append_nil, (h1 d hs).1, h n (by omega) (by rw [hs]; simp)]
        simp
      | none =>
        by_cases hc : Clearing D e n
        · rw [if_pos hc, (h2 hs).1 hc]
        · rw [if_neg hc, (h2 hs).2 hc]; simp

namespace Fw
variable {D : Nat} {e : Nat → Env}

/-- The link from a keyboard to the serial port. -/
def kbLink (D : Nat) (e : Nat → Env) (keys : Nat → Option (BitVec 8)) : UartLink :=
  { divisor := D, dataBits := 8, txRdy := fun k => (keys k).isSome,
    txData := fun k => byteBits ((keys k).getD 0), rxAck := fun k => WbSerial.rxAck (reqs D e k) }

theorem kbLink_rx {keys : Nat → Option (BitVec 8)} (hw : Wired D e keys) (n : Nat) :
    (kbLink D e keys).rx n = (Sys.at_ D e n).ser.rx := by
  induction n with
  | zero => rfl
  | succ n ih =>
    rw [UartLink.rx_succ, ih]
    show UartRx.step D _ (keyboard D keys n).out _ = UartRx.step D _ (e n).rx _
    rw [hw n]; rfl

/-- What the port has received is what was typed some time ago. -/
theorem received_typed (hD : 4 ≤ D) {keys : Nat → Option (BitVec 8)} (hw : Wired D e keys) (hk : DriverKeepsUp D e keys)
    (n : Nat) : received D e n = typed D keys (n - rxLatency D 8) := by
  have hs := C40_stream (kbLink D e keys) hD (fun t => byteBits_length _)
    (fun t ht => by rw [kbLink_rx hw]; exact .inl (hk t ht.1 ht.2))
  obtain ⟨h1, h2⟩ := hs
  simp only [UartLink.Delivers, kbLink_rx hw] at h1 h2
  change ∀ t, ((keyboard D keys t).ack = true ∧ (keys t).isSome = true) → ∃ u, u = t + 1 + rxLatency D 8 ∧ _ at h1
  change ∀ u, _ → ∃ t, ((keyboard D keys t).ack = true ∧ (keys t).isSome = true) ∧ u = t + 1 + rxLatency D 8 at h2
  have hL : 0 < rxLatency D 8 := by rw [rxLatency]; omega
  have ty : ∀ t, ((keyboard D keys t).ack = true ∧ (keys t).isSome = true) →
      typed D keys (t + 1) = typed D keys t ++ [(keys t).getD 0] := by
    rintro t ⟨g1, g2⟩
    obtain ⟨b, hb⟩ := Option.isSome_iff_exists.1 g2
    rw [typed, if_pos g1, hb]; rfl
  have tn : ∀ t, ¬ ((keyboard D keys t).ack = true ∧ (keys t).isSome = true) →
      typed D keys (t + 1) = typed D keys t := by
    intro t h
    rw [typed]
    by_cases g1 : (keyboard D keys t).ack = true
    · rw [if_pos g1]
      cases hb : keys t with
      | none => simp
      | some b => exact absurd ⟨g1, by rw [hb]; rfl⟩ h
    · rw [if_neg g1, List.append_nil]
  induction n with
  | zero => rw [show 0 - rxLatency D 8 = 0 by omega]; rfl
  | succ n ih =>
    rw [received, ih]
    by_cases hd : (Sys.at_ D e n).ser.rx.rdy = false ∧ (Sys.at_ D e (n + 1)).ser.rx.rdy = true
    · rw [if_pos (by simp [hd])]
      obtain ⟨t, ht, htn⟩ := h2 (n + 1) ⟨n, rfl, hd⟩
      obtain ⟨u, hu, -, hdat, -⟩ := h1 t ht
      have : u = n + 1 := by omega
      subst this
      rw [hdat, show n + 1 - rxLatency D 8 = t + 1 by omega, ty t ht, show n - rxLatency D 8 = t by omega]
      show _ ++ [bitsByte (byteBits _)] = _
      rw [bitsByte_byteBits]
    · rw [if_neg (by simpa using hd), List.append_nil]
      by_cases hn : n < rxLatency D 8
      · rw [show n + 1 - rxLatency D 8 = 0 by omega, show n - rxLatency D 8 = 0 by omega]
      · obtain ⟨t, rfl⟩ := Nat.exists_eq_add_of_le (Nat.le_of_not_lt hn)
        rw [show rxLatency D 8 + t + 1 - rxLatency D 8 = t + 1 by omega, show rxLatency D 8 + t - rxLatency D 8 = t by omega, tn]
        intro ht
        obtain ⟨u, hu, ⟨v, hv, hr⟩, -⟩ := h1 t ht
        have e1 : v = rxLatency D 8 + t := by omega
        have e2 : u = rxLatency D 8 + t + 1 := by omega
        subst e1 e2
        exact hd hr

theorem typed_mono (keys : Nat → Option (BitVec 8)) (m k : Nat) : typed D keys m <+: typed D keys (m + k) := by
  induction k with
  | zero => exact List.prefix_refl _
  | succ k ih => exact ih.trans ⟨_, rfl⟩

end Fw

/-- **C64** (keyboard): what a keyboard with the same divisor sends to a firmware that keeps up is what the serial
port receives and the handler stores, in that order, from the first character on. -/
theorem C64_keyboard {D : Nat} (hD : 4 ≤ D) (e : Nat → Env) {keys : Nat → Option (BitVec 8)} (hw : Wired D e keys)
    (hk : DriverKeepsUp D e keys) (n : Nat) :
    received D e (n + rxLatency D 8) = typed D keys n ∧ stores D e n <+: typed D keys n := by
  constructor
  · rw [received_typed hD hw hk, Nat.add_sub_cancel]
  · refine (C64_order e n).1.trans ?_
    rw [received_typed hD hw hk]
    have := typed_mono (D := D) keys (n - rxLatency D 8) (n - (n - rxLatency D 8))
    rwa [show n - rxLatency D 8 + (n - (n - rxLatency D 8)) = n by omega] at this

/-! ## Example -/

/-- The characters 0x31 and 0x32 are typed, in cycles 40 and 100. -/
def fwKeys (k : Nat) : Option (BitVec 8) := if k = 40 then some 0x31#8 else if k = 100 then some 0x32#8 else none

/-- `main` looks at `RX` from cycle 120 on, and is idle before and afterwards; the processor acts in every cycle. -/
def fwTyped (k : Nat) : Env :=
  { act := some (if k = 120 then .lock else if k = 122 then .clearRx else if k = 123 then .unlock else .other)
    rx := (keyboard 4 fwKeys k).out }

namespace Fw

theorem kb_idle (n : Nat) : (keyboard 4 fwKeys (200 + n)).count = 0 ∧ (keyboard 4 fwKeys (200 + n)).out = true := by
  induction n with
  | zero => decide +kernel
  | succ n ih =>
    have e : keyboard 4 fwKeys (200 + (n + 1)) = (keyboard 4 fwKeys (200 + n)).step 4 (fwKeys (200 + n)).isSome
      (byteBits ((fwKeys (200 + n)).getD 0)) := rfl
    have k : fwKeys (200 + n) = none := by
      unfold fwKeys
      rw [if_neg (by omega), if_neg (by omega)]
    rw [e, k, UartTx.step, if_pos ih.1, if_neg (by simp)]
    exact ih

theorem typed_at (n : Nat) : Quiet (Sys.at_ 4 fwTyped (200 + n)) := by
  induction n with
  | zero =>
    refine ⟨by decide +kernel, by decide +kernel, by decide +kernel, by decide +kernel, by decide +kernel, ?_⟩
    have : (Sys.at_ 4 fwTyped (200 + 0)).soft.isr = none := by decide +kernel
    rw [this]
    decide +kernel
  | succ n ih =>
    have e : fwTyped (200 + n) = { act := some .other } := by
      unfold fwTyped
      rw [if_neg (by omega), if_neg (by omega), if_neg (by omega), (kb_idle n).2]
    have := quiet_step (D := 4) ih
    rw [← e] at this
    exact this

end Fw

/-- The hypotheses of `C64_progress` and `C64_keyboard` hold of this run; both characters are stored, and `main`
takes the first. -/
example : (∀ n, ∃ m ≥ n, (fwTyped m).act.isSome = true) ∧
    (∀ n, ∃ m ≥ n, (Sys.at_ 4 fwTyped m).soft.main.enabled = true) ∧
    Wired 4 fwTyped fwKeys ∧ DriverKeepsUp 4 fwTyped fwKeys ∧
    typed 4 fwKeys 200 = [0x31#8, 0x32#8] ∧ received 4 fwTyped 200 = [0x31#8, 0x32#8] ∧
    stores 4 fwTyped 200 = [0x31#8, 0x32#8] ∧ taken 4 fwTyped 200 = [0x31#8] ∧ mailbox 4 fwTyped 200 = some 0x32#8 ∧
    (∀ k < 200, storing 4 fwTyped k ≠ none → mailbox 4 fwTyped k = none) ∧
    (∀ i, i ≤ 2 → (Sys.at_ 4 fwTyped (121 + i)).soft.main.enabled = false) ∧ mailbox 4 fwTyped 121 = some 0x31#8 := by
  refine ⟨fun n => ⟨n, by omega, rfl⟩, fun n => ⟨200 + n, by omega, by rw [(typed_at n).main]; rfl⟩, fun _ => rfl, ?_,
    by decide +kernel, by decide +kernel, by decide +kernel, by decide +kernel, by decide +kernel, by decide +kernel, by decide +kernel,
    by decide +kernel⟩
  intro n _ h
  have : n = 40 ∨ n = 100 := by
    unfold fwKeys at h
    split at h
    · exact .inl (by assumption)
    · split at h
      · exact .inr (by assumption)
      · cases h
  rcases this with rfl | rfl <;> decide +kernel

end Sentinel
