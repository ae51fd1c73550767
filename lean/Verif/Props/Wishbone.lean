import Verif.Spec.Wishbone
import Verif.Soc.AttoCsr
import Verif.Props.RealTime
import Verif.Props.Demo
/-!
# C99: the subordinates of the example SoC, with any master

The other theorems about memory and peripherals have the core on the other side of the bus.  These hold with any master, one that breaks the rules included, and the last one
says that the core works with any subordinate that does what these do.
-/

set_option linter.unusedSimpArgs false

namespace Sentinel
open Spec

/-- What a step that computes ACK as all Wishbone peripherals of the example do means on the bus. -/
theorem answers_of_step {act ack : Nat → Bool} (h0 : ack 0 = false) (hs : ∀ n, ack (n + 1) = (act n && !ack n)) : Answers 1 act ack where
  start := h0
  only n h := by rw [hs] at h; simp at h; exact h.1
  single n h := by rw [hs, h]; simp
  prompt n h := by
    cases ha : ack n
    · exact ⟨1, Nat.le_refl _, by have := h 0 (by omega); rw [Nat.add_zero] at this; rw [hs, this, ha]; rfl⟩
    · exact ⟨0, by omega, ha⟩

/-- The signals of a master, as the memory sees them. -/
structure MemReq where
  cyc : Bool
  stb : Bool
  we : Bool
  adr : BitVec 30
  sel : BitVec 4
  datW : Word
  deriving DecidableEq

namespace WbMem
variable {k : Nat}

/-- The memory (`attosoc.py` 32-109) after `n` cycles with any master. -/
def runAny (m : WbMem k) (q : Nat → MemReq) : Nat → WbMem k
  | 0 => m
  | n + 1 => (runAny m q n).step (q n).cyc (q n).stb (q n).we (q n).adr (q n).sel (q n).datW

/-- **C99** (memory, ACK). -/
theorem C99_ack (m : WbMem k) (h0 : m.ack = false) (q : Nat → MemReq) :
    Answers 1 (fun n => (q n).cyc && (q n).stb) (fun n => (m.runAny q n).ack) :=
  answers_of_step h0 fun n => by
    show ((q n).stb && (q n).cyc && !(m.runAny q n).ack) = _
    rw [Bool.and_comm (q n).stb]

theorem lanes_twice (en : BitVec 4) (old new : Word) : writeLanes en (writeLanes en old new) new = writeLanes en old new := by
  unfold writeLanes
  apply BitVec.eq_of_getLsbD_eq
  intro i hi
  simp only [BitVec.getLsbD_or, BitVec.getLsbD_and, BitVec.getLsbD_not, hi, decide_true, Bool.true_and]
  cases (laneMask en).getLsbD i <;> simp

/-- **C99** (memory, write): a write that is held until its ACK is carried out as one write of the selected bytes of one word. -/
theorem C99_write (m : WbMem k) (q : Nat → MemReq) {n : Nat} (hq : (q n).cyc = true ∧ (q n).stb = true ∧ (q n).we = true)
    (ha : (m.runAny q n).ack = false) (hh : q (n + 1) = q n) :
    (m.runAny q (n + 1)).ack = true ∧ ∀ a, (m.runAny q (n + 2)).mem a =
      if a = (q n).adr.setWidth k then writeLanes (q n).sel ((m.runAny q n).mem a) (q n).datW else (m.runAny q n).mem a := by
  obtain ⟨h1, h2, h3⟩ := hq
  refine ⟨?_, fun a => ?_⟩
  · simp [runAny, step, h1, h2, ha]
  · simp only [runAny, hh, step, h1, h2, h3, Bool.and_self, if_true]
    split
    · exact lanes_twice _ _ _
    · rfl

/-- **C99** (memory, read): a read returns, with its ACK, the word that the memory held in its first cycle, and changes nothing. -/
theorem C99_read (m : WbMem k) (q : Nat → MemReq) {n : Nat} (hq : (q n).cyc = true ∧ (q n).stb = true ∧ (q n).we = false)
    (ha : (m.runAny q n).ack = false) :
    (m.runAny q (n + 1)).ack = true ∧ (m.runAny q (n + 1)).rdata = (m.runAny q n).mem ((q n).adr.setWidth k) ∧
      (m.runAny q (n + 1)).mem = (m.runAny q n).mem := by
  obtain ⟨h1, h2, h3⟩ := hq
  simp [runAny, step, h1, h2, h3, ha]

/-- **C99** (memory, idle): without a request the memory does not change. -/
theorem C99_idle (m : WbMem k) (q : Nat → MemReq) {n : Nat} (hq : ((q n).cyc && (q n).stb) = false) :
    (m.runAny q (n + 1)).mem = (m.runAny q n).mem := by
  have : ((q n).stb && (q n).cyc) = false := by rw [Bool.and_comm]; exact hq
  simp [runAny, step, this]

end WbMem

namespace WbTimer

/-- **C99** (timer, ACK). -/
theorem C99_ack (s : WbTimer) (h0 : s.ack = false) (r : Nat → WbReq) : Answers 1 (fun n => (r n).cyc && (r n).stb) (fun n => (s.run r n).ack) :=
  answers_of_step h0 fun n => by
    show ((r n).stb && (r n).cyc && !(s.run r n).ack) = _
    rw [Bool.and_comm (r n).stb]

/-- **C99** (timer): requests other than reads do not touch the counter. -/
theorem C99_quiet (s : WbTimer) (r : Nat → WbReq) {n : Nat} (h : ((r n).cyc && (r n).stb && !(r n).we && (r n).sel) = false) :
    (s.run r (n + 1)).prescalar = (s.run r n).prescalar + 1 := by
  show ((s.run r n).step (r n)).prescalar = _
  have : ((r n).stb && (r n).cyc && !(r n).we && (r n).sel) = false := by rw [Bool.and_comm (r n).stb]; exact h
  simp [step, this]

end WbTimer

namespace WbLeds

/-- **C99** (LEDs, ACK). -/
theorem C99_ack (s : WbLeds) (h0 : s.ack = false) (r : Nat → WbReq) (g : Nat → BitVec 8) :
    Answers 1 (fun n => (r n).cyc && (r n).stb) (fun n => (s.run r g n).ack) :=
  answers_of_step h0 fun n => by
    show ((r n).stb && (r n).cyc && !(s.run r g n).ack) = _
    rw [Bool.and_comm (r n).stb]

/-- **C99** (LEDs, write): a write that is held until its ACK writes the register it addresses, and no other. -/
theorem C99_write (s : WbLeds) (r : Nat → WbReq) (g : Nat → BitVec 8) {n : Nat}
    (hq : (r n).cyc = true ∧ (r n).stb = true ∧ (r n).we = true ∧ (r n).sel = true) (ha : (s.run r g n).ack = false) (hh : r (n + 1) = r n) :
    (s.run r g (n + 2)).leds = (if (r n).adr = 0 then (r n).datW else (s.run r g n).leds) ∧
    (s.run r g (n + 2)).gpioO = (if (r n).adr = 1 then (r n).datW else (s.run r g n).gpioO) ∧
    (s.run r g (n + 2)).gpioOe = (if (r n).adr = 2 then (r n).datW else (s.run r g n).gpioOe) := by
  obtain ⟨h1, h2, h3, h4⟩ := hq
  simp [run, step, hh, h1, h2, h3, h4, ha]

/-- **C99** (LEDs, idle): nothing but a write changes the outputs. -/
theorem C99_idle (s : WbLeds) (r : Nat → WbReq) (g : Nat → BitVec 8) {n : Nat} (h : ((r n).cyc && (r n).stb && (r n).we && (r n).sel) = false) :
    (s.run r g (n + 1)).leds = (s.run r g n).leds ∧ (s.run r g (n + 1)).gpioO = (s.run r g n).gpioO ∧
    (s.run r g (n + 1)).gpioOe = (s.run r g n).gpioOe := by
  simp only [run, step]
  generalize (r n).cyc = a1 at *
  generalize (r n).stb = a2 at *
  generalize (r n).we = a3 at *
  generalize (r n).sel = a4 at *
  revert h
  cases a1 <;> cases a2 <;> cases a3 <;> cases a4 <;> simp

end WbLeds

namespace WbSerial

/-- **C99** (serial port, ACK). -/
theorem C99_ack (D : Nat) (s : WbSerial) (h0 : s.ack = false) (r : Nat → WbReq) (x : Nat → Bool) :
    Answers 1 (fun n => (r n).cyc && (r n).stb) (fun n => (s.run D r x n).ack) :=
  answers_of_step h0 fun n => by
    show ((r n).stb && (r n).cyc && !(s.run D r x n).ack) = _
    rw [Bool.and_comm (r n).stb]

/-- **C99** (serial port, transmit): a write to the data register that is held until its ACK is handed to the transmitter once, and a read of the interrupt register clears it
once. -/
theorem C99_once (D : Nat) (s : WbSerial) (r : Nat → WbReq) (x : Nat → Bool) {n : Nat} (hq : (r n).cyc = true ∧ (r n).stb = true)
    (ha : (s.run D r x n).ack = false) (hh : r (n + 1) = r n) :
    (s.run D r x n).txRdy (r n) = false ∧ ((s.run D r x (n + 1)).txRdy (r (n + 1)) = ((r n).sel && !(r n).adr.getLsbD 0 && (r n).we)) ∧
    ((s.run D r x n).irqRead (r n) = ((r n).sel && (r n).adr.getLsbD 0 && !(r n).we)) ∧ (s.run D r x (n + 1)).irqRead (r (n + 1)) = false := by
  obtain ⟨h1, h2⟩ := hq
  have ha' : (s.run D r x (n + 1)).ack = true := by
    show ((r n).stb && (r n).cyc && !(s.run D r x n).ack) = true
    simp [h1, h2, ha]
  simp [txRdy, irqRead, dataReq, ha, ha', hh, h1, h2]

end WbSerial

namespace WbCsr

/-- The bridge (`attosoc.py` 890) after `n` cycles with any master and any registers behind it. -/
def runAny (b : WbCsr) (act : Nat → Bool) (d : Nat → BitVec 8) : Nat → WbCsr
  | 0 => b
  | n + 1 => (runAny b act d n).step (act n) (d n)

/-- **C99** (bridge to the CSR bus, ACK): within 5 cycles. -/
theorem C99_ack (b : WbCsr) (h0 : b.ack = false) (hc : b.cycle ≤ 4) (act : Nat → Bool) (d : Nat → BitVec 8) :
    Answers 5 act (fun n => (b.runAny act d n).ack) where
  start := h0
  only n h := by
    have h : (!(b.runAny act d n).ack && act n && !decide ((b.runAny act d n).cycle < 4)) = true := h
    simp at h; exact h.1.2
  single n h := by
    show (!(b.runAny act d n).ack && act n && !decide ((b.runAny act d n).cycle < 4)) = false
    simp [h]
  prompt n h := by
    have hcyc : ∀ n, (b.runAny act d n).cycle ≤ 4 := by
      intro n
      induction n with
      | zero => exact hc
      | succ n ih =>
        show (if _ then 0 else if _ then _ else _) ≤ 4
        split
        · omega
        · split
          · next hx =>
            have := hx
            simp only [Bool.and_eq_true, decide_eq_true_eq] at this
            exact this.2
          · exact ih
    by_contra hno
    push Not at hno
    have hno : ∀ j ≤ 5, (b.runAny act d (n + j)).ack = false := fun j hj => by simpa using hno j hj
    have key : ∀ j ≤ 4, min 4 j ≤ (b.runAny act d (n + j)).cycle := by
      intro j hj
      induction j with
      | zero => simp
      | succ j ih =>
        have ih := ih (by omega)
        have e : (b.runAny act d (n + (j + 1))).cycle = if (b.runAny act d (n + j)).ack then 0
          else if act (n + j) && (b.runAny act d (n + j)).cycle < 4 then (b.runAny act d (n + j)).cycle + 1 else (b.runAny act d (n + j)).cycle := rfl
        rw [e, hno j (by omega), h j (by omega), if_neg (by simp)]
        split
        · omega
        · next hx => simp at hx; omega
    have e : (b.runAny act d (n + 5)).ack = (!(b.runAny act d (n + 4)).ack && act (n + 4) && !decide ((b.runAny act d (n + 4)).cycle < 4)) := rfl
    have k4 := key 4 (Nat.le_refl _)
    rw [hno 5 (Nat.le_refl _), hno 4 (by omega), h 4 (by omega), decide_eq_false (by omega)] at e
    simp at e

end WbCsr

/-- **C99** (core): with any subordinate that follows these rules, the core's assumptions about the bus hold, so that the other theorems apply: ACK is registered, and
requests are answered in `W + 1` cycles. -/
theorem C99_core {s : State} {inp : Nat → Input} {W : Nat} (h : AfterReset s)
    (ha : Answers W (fun n => (s.run inp n).cyc && (s.run inp n).stb) (fun n => (inp n).ack)) : s.RegisteredAck inp ∧ s.AckWithin inp (W + 1) := by
  have hcs : ∀ n, (s.run inp n).stb = (s.run inp n).cyc := fun n => rfl
  have hr : s.RegisteredAck inp := by
    intro t hf
    cases t with
    | zero => exact ha.start
    | succ t =>
      cases hx : (inp (t + 1)).ack
      · rfl
      · have := ha.only t hx
        simp [hf.2 t rfl] at this
  refine ⟨hr, fun f hf => ?_⟩
  by_contra hno
  push Not at hno
  have hno : ∀ j ≤ W, (inp (f + j)).ack = false := fun j hj => by simpa using hno j (by omega)
  have hc : ∀ j ≤ W, (s.run inp (f + j)).cyc = true := by
    intro j hj
    induction j with
    | zero => exact hf.1
    | succ j ih => exact (C23_stable h inp (ih (by omega)) (hno j (by omega))).1
  obtain ⟨j, h1, h2⟩ := ha.prompt f fun j hj => by
    show ((s.run inp (f + j)).cyc && (s.run inp (f + j)).stb) = true
    rw [hcs, hc j (by omega)]; rfl
  have h2 : (inp (f + j)).ack = true := h2
  rw [hno j h1] at h2
  cases h2

/-- The requests of the core to the memory, in `Soc`. -/
def Soc.reqs {k : Nat} (s : Soc k) (irq : Nat → Bool) (n : Nat) : MemReq :=
  let c := (s.run irq n).cpu
  ⟨c.cyc, c.stb, c.we, c.adr, c.sel, c.datW⟩

theorem Soc.ram_any {k : Nat} (s : Soc k) (irq : Nat → Bool) (n : Nat) : (s.run irq n).ram = s.ram.runAny (s.reqs irq) n := by
  induction n with
  | zero => rfl
  | succ n ih =>
    show ((s.run irq n).step (irq n)).ram = _
    simp only [Soc.step, ih, WbMem.runAny, Soc.reqs]

/-- The hypotheses of `C99_core` are met by the memory, whatever the program. -/
example (p : List Word) : AfterReset powerOn ∧
    Answers 1 (fun n => (powerOn.run (demoIn p false) n).cyc && (powerOn.run (demoIn p false) n).stb) (fun n => (demoIn p false n).ack) := by
  refine ⟨.inl rfl, ?_⟩
  have := (demo p).ram.C99_ack rfl ((demo p).reqs fun _ => false)
  simp only [← Soc.ram_any] at this
  have hc : ∀ n, powerOn.run (demoIn p false) n = ((demo p).run (fun _ => false) n).cpu := fun n => (Soc.run_cpu (demo p) (fun _ => false) n).symm
  simp only [hc]
  exact this

/-- A master that writes the lower half of word 3 and then, without releasing the bus, reads word 3. -/
def twoRequests (n : Nat) : MemReq := ⟨true, true, decide (n < 2), 3, 0b0011, 0xAABBCCDD⟩

example : let m : WbMem 4 := ⟨fun _ => 0x11223344, 0, false⟩
    m.ack = false ∧ (m.runAny twoRequests 0).ack = false ∧ twoRequests 1 = twoRequests 0 ∧ (m.runAny twoRequests 2).ack = false ∧
    (m.runAny twoRequests 3).ack = true ∧ (m.runAny twoRequests 3).rdata = 0x1122CCDD ∧ (m.runAny twoRequests 3).mem 2 = 0x11223344 := by
  decide +kernel

/-- A subordinate that answers in the cycle of the request does not follow the rules (and the core does not work with it, C30). -/
example : ¬ Answers 1 (fun n => decide (n = 3)) (fun n => decide (n = 3)) := fun h => by
  have := h.only 2 rfl
  simp at this

end Sentinel
