import Verif.Soc.Firmware
/-!
# The application of the Rust firmware — `sentinel-rt/examples/attosoc.rs`

`main`, `do_demo`, `set_rule` and `read_num` as a program that chooses the operations (`Op`) of the system of
`Soc/Firmware.lean`.  The part of the state that only the application sees (the row of cells, the style, the digits read)
is in `App`.  A row is computed in one action (`row`): nothing outside `do_demo` sees the buffer.

`u8::from_radix_10` (external crate `atoi` 2.0.0): the number made of the leading decimal digits, modulo 256 (the firmware
is built with `--release`, `pyproject.toml` 161), and their number.
-/

namespace Sentinel.Fw

/-- `BUFSIZ` (`attosoc.rs` 25). -/
def bufsiz : Nat := 80

/-- `INIT_POS` (`attosoc.rs` 26). -/
def initPos : Nat := bufsiz - 1

/-- `char::encode_utf8` (`attosoc.rs` 185; Rust's core library) of the code point `c`. -/
def encodeUtf8 (c : Nat) : List (BitVec 8) :=
  if c < 0x80 then [BitVec.ofNat 8 c]
  else if c < 0x800 then [BitVec.ofNat 8 (0xc0 + c / 64), BitVec.ofNat 8 (0x80 + c % 64)]
  else if c < 0x10000 then
    [BitVec.ofNat 8 (0xe0 + c / 4096), BitVec.ofNat 8 (0x80 + c / 64 % 64), BitVec.ofNat 8 (0x80 + c % 64)]
  else
    [BitVec.ofNat 8 (0xf0 + c / 262144), BitVec.ofNat 8 (0x80 + c / 4096 % 64), BitVec.ofNat 8 (0x80 + c / 64 % 64),
      BitVec.ofNat 8 (0x80 + c % 64)]

/-- `BOX_DRAW_CHAR_MAP` (`attosoc.rs` 246-248). -/
def boxDrawCharMap : List Nat := [0x20, 0x2591, 0x2591, 0x2592, 0x2592, 0x2593, 0x2588, 0x2588]

/-- `DONUT_CHAR_MAP` (`attosoc.rs` 249). -/
def donutCharMap : List Nat := [0x20, 0x2e, 0x2d, 0x3a, 0x3b, 0x21, 0x23, 0x40]

/-- `CHAR_MAPS.get(i)` (`attosoc.rs` 255, 260, 332). -/
def charMap : Nat → Option (List Nat)
  | 0 => some boxDrawCharMap
  | 1 => some donutCharMap
  | _ => none

/-- The character written for a cell (`attosoc.rs` 288-301): `idx` is made of the cell and its neighbours, `style` is
`char_map_idx`. -/
def shade (rule : BitVec 8) (style idx : Nat) : Nat :=
  match charMap style with
  | some cm => cm.getD idx 0
  | none => if rule.getLsbD idx then (if style % 2 = 0 then 0x2588 else 0x23) else 0x20

/-- What the loop over the columns has: what it has written, `buffer`, `prev_left` and `prev_center`
(`attosoc.rs` 262, 279-280, 302). -/
structure Row where
  out : List (BitVec 8) := []
  buf : List Bool
  left : Bool
  center : Bool

/-- The body of the loop over the columns (`attosoc.rs` 283-309). -/
def Row.cell (rule : BitVec 8) (style : Nat) (r : Row) (i : Nat) : Row :=
  let right := (r.buf[i + 1]?).getD false
  let idx := 4 * r.left.toNat + 2 * r.center.toNat + right.toNat
  { out := r.out ++ encodeUtf8 (shade rule style idx)
    buf := r.buf.set i (rule.getLsbD idx)
    left := r.center
    center := right }

/-- The body of the `loop` of `do_demo` up to the new line (`attosoc.rs` 279-313): what is written, and the new `buffer`. -/
def demoRow (rule : BitVec 8) (style : Nat) (buf : List Bool) : List (BitVec 8) × List Bool :=
  let r := (List.range bufsiz).foldl (Row.cell rule style) { buf := buf, left := false, center := (buf[0]?).getD false }
  (r.out ++ encodeUtf8 0x0a, r.buf)

/-- `buffer` at the beginning (`attosoc.rs` 262-263). -/
def initBuf : List Bool := (List.replicate bufsiz false).set initPos true

/-- What is written for it (`attosoc.rs` 267-276). -/
def initRow : List (BitVec 8) :=
  initBuf.flatMap (fun c => encodeUtf8 (if c then 0x2588 else 0x20)) ++ encodeUtf8 0x0a

/-- The text of `set_rule` (`attosoc.rs` 354). -/
def prompt : List (BitVec 8) := "ctrl-c hit\nrule (default 110)? ".toList.flatMap fun c => encodeUtf8 c.toNat

/-- `u8::from_radix_10` (`attosoc.rs` 229): the number and how many digits there are. -/
def fromRadix10 : List (BitVec 8) → BitVec 8 × Nat :=
  go 0 0
where
  go (num : BitVec 8) (cnt : Nat) : List (BitVec 8) → BitVec 8 × Nat
    | [] => (num, cnt)
    | b :: bs => if 0x30 ≤ b.toNat ∧ b.toNat ≤ 0x39 then go (num * 10 + (b - 0x30)) (cnt + 1) bs else (num, cnt)

/-- `read_num(..).unwrap_or(110)` (`attosoc.rs` 229-235, 356), of what has been read. -/
def readRule (buf : List (BitVec 8)) : BitVec 8 :=
  if 0 < (fromRadix10 buf).2 then (fromRadix10 buf).1 else 110

/-- Local variables of `do_demo`: `rule`, `char_map_idx` and `buffer` (`attosoc.rs` 244, 259, 262). -/
structure Demo where
  rule : BitVec 8
  style : Nat
  buf : List Bool

/-- Where the application is (`attosoc.rs` 209-236, 240-365, 404-409). -/
inductive Pc where
  /-- at the beginning of `do_demo` (240) -/
  | init (rule : BitVec 8)
  /-- at the beginning of its `loop` (278) -/
  | row (d : Demo)
  /-- `COUNT.store(0)` (315) -/
  | zero (d : Demo)
  /-- the first `read_inp_port` (319) -/
  | sample (d : Demo)
  /-- before 322; the port has been read -/
  | sampled (d : Demo)
  /-- at `while COUNT.load() < 144` (322); `chk` is `debounce_chk_passed` -/
  | wait (d : Demo) (chk : Bool)
  /-- the first `read_inp_port` of 324 -/
  | poll (d : Demo)
  /-- the second one -/
  | poll2 (d : Demo)
  /-- both have been read; the first one was `v` -/
  | polled (d : Demo) (v : BitVec 8)
  /-- after the `while` (330) -/
  | decide (d : Demo) (chk : Bool)
  /-- entering the critical section (335) -/
  | ctrl (d : Demo)
  /-- `RX.borrow(cs).get()` (335) -/
  | look (d : Demo)
  /-- `RX.borrow(cs).set(None)` (337, 341); `c` was in it -/
  | clear (d : Demo) (c : BitVec 8)
  /-- leaving the critical section -/
  | unlock (d : Demo) (ctrlC : Bool)
  /-- at the beginning of `set_rule` (353) -/
  | setRule
  /-- `while cnt < 3` in `read_num` (216); `buf` are the characters read -/
  | read (buf : List (BitVec 8))
  /-- `RX.borrow(cs).get()` (218) -/
  | readLook (buf : List (BitVec 8))
  /-- `RX.borrow(cs).set(None)` (224) -/
  | readClear (buf : List (BitVec 8))
  /-- leaving the critical section -/
  | readUnlock (buf : List (BitVec 8))
  /-- `write_leds` (360) -/
  | leds (rule : BitVec 8)
  /-- before 362 -/
  | newline (rule : BitVec 8)

/-- State of the application (`attosoc.rs` 209-236, 240-365, 404-409): what it is about to write (with one `write_char` for each character), where it
is, and what `read_inp_port` has returned. -/
structure App where
  out : List (BitVec 8) := []
  pc : Pc := .init 110
  inp : BitVec 8 := 0

/-- The next operation (`attosoc.rs` 209-236, 240-365, 404-409; one `write` for each byte of `write_char`, 185-198). -/
def App.op (a : App) : Op :=
  match a.out with
  | b :: _ => .write b
  | [] =>
    match a.pc with
    | .zero _ => .zeroCount
    | .sample _ | .poll _ | .poll2 _ => .readGpio
    | .ctrl _ | .read _ => .lock
    | .clear _ _ | .readClear _ => .clearRx
    | .unlock _ _ | .readUnlock _ => .unlock
    | .leds r => .writeLeds r
    | _ => .other

/-- After the next operation (`attosoc.rs` 209-236, 240-365, 404-409); `rx` is the content of `RX`, `count` that of `COUNT`. -/
def App.next (a : App) (rx : Option (BitVec 8)) (count : BitVec 8) : App :=
  match a.out with
  | _ :: bs => { a with out := bs }
  | [] =>
    match a.pc with
    | .init r => { a with out := initRow, pc := .row ⟨r, 0, initBuf⟩ }
    | .row d => { a with out := (demoRow d.rule d.style d.buf).1, pc := .zero { d with buf := (demoRow d.rule d.style d.buf).2 } }
    | .zero d => { a with pc := .sample d }
    | .sample d => { a with pc := .sampled d }
    | .sampled d => { a with pc := .wait d (a.inp &&& 1 != 0) }
    | .wait d chk => if count.toNat < 144 then { a with pc := if chk then .poll d else .wait d chk } else { a with pc := .decide d chk }
    | .poll d => { a with pc := .poll2 d }
    | .poll2 d => { a with pc := .polled d a.inp }
    | .polled d v => { a with pc := .wait d (v &&& (a.inp &&& 1) != 0) }
    | .decide d chk => { a with pc := .ctrl (if chk then { d with style := (d.style + 1) % 4 } else d) }
    | .ctrl d => { a with pc := .look d }
    | .look d => { a with pc := match rx with | some c => .clear d c | none => .unlock d false }
    | .clear d c => { a with pc := .unlock d (c == 3) }
    | .unlock d ctrlC => { a with pc := if ctrlC then .setRule else .row d }
    | .setRule => { a with out := prompt, pc := .read [] }
    | .read buf => { a with pc := .readLook buf }
    | .readLook buf =>
      match rx with
      | some b => { a with out := encodeUtf8 b.toNat, pc := .readClear (buf ++ [b]) }
      | none => { a with pc := .readUnlock buf }
    | .readClear buf => { a with pc := .readUnlock buf }
    | .readUnlock buf => { a with pc := if buf.length < 3 then .read buf else .leds (readRule buf) }
    | .leds r => { a with pc := .newline r }
    | .newline r => { a with out := encodeUtf8 0x0a, pc := .init r }

/-- What happens in a cycle: does the processor do the next action, and the input pins (the pins of `examples/attosoc.py` 857-861 and 893-896). -/
structure Pins where
  go : Bool := true
  rx : Bool := true
  gpioI : BitVec 8 := 0
  /-- as in `Env` -/
  csr : Bool := false

/-- The system and the application (`sentinel-rt/examples/attosoc.rs` 367-410 on `examples/attosoc.py` 766-922). -/
structure Machine where
  sys : Sys := {}
  app : App := {}

namespace Machine

/-- What the application makes the system do (`sentinel-rt/examples/attosoc.rs` 207-410). -/
def env (s : Machine) (p : Pins) : Env :=
  { act := if p.go then some s.app.op else none, rx := p.rx, gpioI := p.gpioI, csr := p.csr }

/-- The application does its next operation: the processor does an action, which is neither one of the interrupt handler
(or of the interrupt) nor one inside `write_char`, a bus access or the enabling of interrupts (`sentinel-rt/examples/attosoc.rs` 207-410). -/
def asks (s : Machine) (p : Pins) : Bool :=
  p.go && s.sys.soft.access.isNone && s.sys.soft.isr.isNone && !(s.sys.soft.main.enabled && s.sys.irq) &&
    match s.sys.soft.main with
    | .app | .locked => true
    | _ => false

/-- What `read_inp_port` has returned (`attosoc.rs` 125-127, 319, 324). -/
def input (s : Machine) : BitVec 8 :=
  match s.sys.soft.isr, s.sys.soft.main with
  | none, .gpio _ => if s.sys.leds.ack then s.sys.leds.datR else s.app.inp
  | _, _ => s.app.inp

/-- One clock (`sentinel-rt/examples/attosoc.rs` 207-410). -/
def step (D : Nat) (s : Machine) (p : Pins) : Machine :=
  { sys := s.sys.step D (s.env p)
    app := if s.asks p then s.app.next s.sys.soft.rxBox s.sys.soft.count else { s.app with inp := s.input } }

/-- The machine after `n` cycles, from power-on (iterates `sentinel-rt/examples/attosoc.rs` 367-410). -/
def at_ (D : Nat) (p : Nat → Pins) : Nat → Machine
  | 0 => { sys := Sys.init (p 0).csr }
  | n + 1 => (at_ D p n).step D (p n)

/-- What the application makes the system do in cycle `n` (iterates `sentinel-rt/examples/attosoc.rs` 367-410). -/
def envs (D : Nat) (p : Nat → Pins) (n : Nat) : Env := (at_ D p n).env (p n)

end Machine

end Sentinel.Fw
