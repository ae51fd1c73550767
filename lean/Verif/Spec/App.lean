import Verif.Soc.App
import Verif.Spec.Firmware
/-!
# What the application of the Rust firmware is to say

A session is a conversation: the application says something, waits for an input, says something, and so on.  This is
written down here as a function of the inputs, with text as lists of characters, and
without any of the definitions of the model (`Soc/App.lean`) but the types of its inputs.
-/

namespace Sentinel.Fw

/-- The bytes of a text (UTF-8, from Lean's library). -/
def utf8 (cs : List Char) : List (BitVec 8) := cs.flatMap fun c => (String.utf8EncodeChar c).map UInt8.toBitVec

/-- A cell and its two neighbours as a number from 0 to 7, the left one being the most significant bit. -/
def around (g : Int → Bool) (i : Int) : Nat := 4 * (g (i - 1)).toNat + 2 * (g i).toNat + (g (i + 1)).toNat

/-- Generation `j` of the elementary cellular automaton `rule` (Wolfram's numbering): 80 cells, of which only the last is
alive at first, in between dead cells. -/
def cell (rule : BitVec 8) : Nat → Int → Bool
  | 0, i => i == 79
  | j + 1, i => decide (0 ≤ i ∧ i < 80) && rule.getLsbD (around (cell rule j) i)

/-- How cell `i` of generation `j` is drawn, in one of four styles: shaded according to the neighbourhood, or just
the cell of the next generation. -/
def drawn (rule : BitVec 8) (style j : Nat) (i : Int) : Char :=
  match style with
  | 0 => [' ', '░', '░', '▒', '▒', '▓', '█', '█'].getD (around (cell rule j) i) ' '
  | 1 => [' ', '.', '-', ':', ';', '!', '#', '@'].getD (around (cell rule j) i) ' '
  | 2 => if cell rule (j + 1) i then '█' else ' '
  | _ => if cell rule (j + 1) i then '#' else ' '

/-- The line for generation `j`. -/
def rowText (rule : BitVec 8) (style j : Nat) : List Char :=
  (List.range 80).map (fun i => drawn rule style j (i : Nat)) ++ ['\n']

/-- The line at the beginning of a demonstration. -/
def firstRow : List Char := List.replicate 79 ' ' ++ ['█', '\n']

/-- The rule that is typed: the number that the leading digits make, modulo 256; 110 if there is none. -/
def ruleOf (typed : List (BitVec 8)) : BitVec 8 :=
  let digits := typed.takeWhile fun b => decide (48 ≤ b.toNat ∧ b.toNat ≤ 57)
  if digits = [] then 110 else BitVec.ofNat 8 (digits.foldl (fun n b => 10 * n + (b.toNat - 48)) 0)

/-- An input.  While a demonstration is going on: was the button pressed during the wait after a line, and the character
that had been typed at the end of it, if any.  While a rule is being asked for: the character typed. -/
structure Input where
  press : Bool
  key : Option (BitVec 8)

/-- Where the conversation is. -/
inductive Phase where
  /-- generation `gen` is on the screen -/
  | demo (rule : BitVec 8) (style gen : Nat)
  /-- a rule is being asked for; this has been typed -/
  | ask (typed : List (BitVec 8))

/-- A session: what has been said, where it is, and the LEDs. -/
structure Session where
  said : List Char := firstRow ++ rowText 110 0 0
  phase : Phase := .demo 110 0 0
  leds : BitVec 8 := 0

/-- The conversation goes on with the input `i`. -/
def Session.step (s : Session) (i : Input) : Session :=
  match s.phase with
  | .demo rule style gen =>
    if i.key = some 3 then
      { s with said := s.said ++ "ctrl-c hit\nrule (default 110)? ".toList, phase := .ask [] }
    else
      let style' := if i.press then (style + 1) % 4 else style
      { s with said := s.said ++ rowText rule style' (gen + 1), phase := .demo rule style' (gen + 1) }
  | .ask typed =>
    match i.key with
    | none => s
    | some b =>
      if typed.length < 2 then { s with said := s.said ++ [Char.ofNat b.toNat], phase := .ask (typed ++ [b]) }
      else
        let rule := ruleOf (typed ++ [b])
        { said := s.said ++ [Char.ofNat b.toNat, '\n'] ++ firstRow ++ rowText rule 0 0, phase := .demo rule 0 0, leds := rule }

/-- The session with the inputs `is`. -/
def session (is : List Input) : Session := is.foldl Session.step {}

/-- The characters typed in it. -/
def keysOf (is : List Input) : List (BitVec 8) := is.filterMap Input.key

/-- `main` is reading the input port. -/
def Main.reading : Main → Bool
  | .gpio _ => true
  | _ => false

/-- What `main` has read from bit 0 of the input port (the button), in the first `n` cycles, since it last wrote something: when
a read ends, it is what the pin was in the cycle before. -/
def samples (D : Nat) (e : Nat → Env) : Nat → List Bool
  | 0 => []
  | n + 1 =>
    if (writing D e (n + 1)).isSome then []
    else samples D e n ++
      if (Sys.at_ D e n).soft.main.reading && !(Sys.at_ D e (n + 1)).soft.main.reading then [(e (n - 1)).gpioI.getLsbD 0] else []

/-- `h n` are the inputs of the first `n` cycles of the run: it is a history that explains what is observed. -/
structure Explains (D : Nat) (p : Nat → Pins) (h : Nat → List Input) : Prop where
  /-- Inputs come one at a time. -/
  start : h 0 = []
  grows : ∀ n, h (n + 1) = h n ∨ ∃ i, h (n + 1) = h n ++ [i]
  /-- An input is taken by an action of the processor. -/
  acts : ∀ n i, h (n + 1) = h n ++ [i] → (p n).go = true
  /-- What has been written is what the session is to say, so far... -/
  said : ∀ n, calls D (Machine.envs D p) n <+: utf8 (session (h n)).said
  /-- ... and all of it, but what belongs to the last input. -/
  before : ∀ n is i, h n = is ++ [i] → utf8 (session is).said <+: calls D (Machine.envs D p) n
  /-- The character of an input is what is in `RX` at that time, -/
  box : ∀ n i, h (n + 1) = h n ++ [i] → i.key = mailbox D (Machine.envs D p) n
  /-- and it is taken out: those taken are those of the inputs, but that of the last one perhaps. -/
  keys : ∀ n, taken D (Machine.envs D p) n <+: keysOf (h n)
  keysBefore : ∀ n is i, h n = is ++ [i] → keysOf is <+: taken D (Machine.envs D p) n
  /-- When everything has been said, the LEDs are as they are to be. -/
  leds : ∀ n, calls D (Machine.envs D p) n = utf8 (session (h n)).said → (Machine.at_ D p n).sys.leds.leds = (session (h n)).leds
  /-- The button was pressed if it was each time `main` has looked, and it has looked. -/
  button : ∀ n i rule style gen, h (n + 1) = h n ++ [i] → (session (h n)).phase = .demo rule style gen →
    samples D (Machine.envs D p) n ≠ [] ∧ i.press = (samples D (Machine.envs D p) n).all id
  /-- A line of a demonstration stays the last one for more than 142 * 2^14 cycles. -/
  apart : ∀ n i rule style gen, h (n + 1) = h n ++ [i] → (session (h n)).phase = .demo rule style gen →
    ∃ m, m + 142 * 2 ^ 14 < n ∧ ∀ k, m ≤ k → k ≤ n → writing D (Machine.envs D p) k = none

end Sentinel.Fw
