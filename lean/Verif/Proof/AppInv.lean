import Verif.Proof.AppRun
/-!
# The application of the Rust firmware follows its specification
-/

set_option linter.unusedSimpArgs false

namespace Sentinel.Fw

/-- The inputs of a run so far, and whether the button was pressed in the last wait. -/
structure Ghost where
  hist : List Input := []
  chk : Bool := false

def Ghost.step (g : Ghost) (s : Machine) (p : Pins) : Ghost :=
  if s.asks p && s.app.out.isEmpty then
    match s.app.pc with
    | .decide _ chk => { g with chk := chk }
    | .look _ => { g with hist := g.hist ++ [⟨g.chk, s.sys.soft.rxBox⟩] }
    | .readLook _ => if s.sys.soft.rxBox.isSome then { g with hist := g.hist ++ [⟨false, s.sys.soft.rxBox⟩] } else g
    | _ => g
  else g

def ghost (D : Nat) (p : Nat → Pins) : Nat → Ghost
  | 0 => {}
  | n + 1 => (ghost D p n).step (Machine.at_ D p n) (p n)

/-- Is this place in a critical section? -/
def Pc.lk : Pc → Bool
  | .look _ | .clear _ _ | .unlock _ _ | .readLook _ | .readClear _ | .readUnlock _ => true
  | _ => false

/-- The character that has been read but not been removed yet. -/
def Pc.pend : Pc → List (BitVec 8)
  | .clear _ c => [c]
  | .readClear buf => buf.getLast?.toList
  | _ => []

def Phase.row : Phase → List Char
  | .demo r st j => rowText r st j
  | .ask _ => []

def promptText : List Char := "ctrl-c hit\nrule (default 110)? ".toList

/-- What is still to be said. -/
def Pc.due (ph : Phase) : Pc → List Char
  | .init _ => firstRow ++ ph.row
  | .row _ | .unlock _ false => ph.row
  | .clear _ c => if c = 3 then promptText else ph.row
  | .unlock _ true | .setRule => promptText
  | .readClear buf | .readUnlock buf => if buf.length < 3 then [] else ['\n'] ++ firstRow ++ ph.row
  | .leds _ | .newline _ => ['\n'] ++ firstRow ++ ph.row
  | _ => []

/-- Has the LED register still to be written? -/
def Pc.ledDue : Pc → Bool
  | .leds _ => true
  | .readClear buf | .readUnlock buf => (3 ≤ buf.length : Bool)
  | _ => false

/-- Before a row is drawn. -/
def Demo.Before (ph : Phase) (d : Demo) : Prop := ∃ j, ph = .demo d.rule d.style j ∧ d.style < 4 ∧ d.buf = bufOf d.rule j

/-- After it has been drawn. -/
def Demo.After (ph : Phase) (d : Demo) : Prop := ∃ j, ph = .demo d.rule d.style j ∧ d.style < 4 ∧ d.buf = bufOf d.rule (j + 1)

/-- After the wait. -/
def Demo.Waited (chk : Bool) (ph : Phase) (d : Demo) : Prop :=
  ∃ j st, ph = .demo d.rule st j ∧ st < 4 ∧ d.style = (if chk then (st + 1) % 4 else st) ∧ d.buf = bufOf d.rule (j + 1)

def Pc.Ok (chk : Bool) (rx : Option (BitVec 8)) (ph : Phase) (leds : BitVec 8) : Pc → Prop
  | .init r => ph = .demo r 0 0
  | .leds r | .newline r => ph = .demo r 0 0 ∧ leds = r
  | .row d | .unlock d false => d.Before ph
  | .zero d | .sample d | .sampled d | .wait d _ | .poll d | .poll2 d | .polled d _ | .decide d _ => d.After ph
  | .ctrl d | .look d => d.Waited chk ph
  | .clear d c => rx = some c ∧ if c = 3 then ph = .ask [] else d.Before ph
  | .unlock _ true | .setRule => ph = .ask []
  | .read buf | .readLook buf => ph = .ask buf ∧ buf.length < 3
  | .readClear buf => rx = buf.getLast? ∧ buf.length ≤ 3 ∧ if buf.length < 3 then ph = .ask buf else ph = .demo (ruleOf buf) 0 0 ∧ leds = ruleOf buf
  | .readUnlock buf => buf.length ≤ 3 ∧ if buf.length < 3 then ph = .ask buf else ph = .demo (ruleOf buf) 0 0 ∧ leds = ruleOf buf

/-- The invariant: `C` are the bytes written and `T` the characters taken. -/
structure AppInv (s : Machine) (g : Ghost) (C T : List (BitVec 8)) : Prop where
  text : C ++ (s.app.out ++ utf8 (s.app.pc.due (session g.hist).phase)) = utf8 (session g.hist).said
  keys : T ++ s.app.pc.pend = keysOf g.hist
  ok : s.app.pc.Ok g.chk s.sys.soft.rxBox (session g.hist).phase (session g.hist).leds
  lk : s.sys.soft.main.lk = s.app.pc.lk
  prev : ∀ is i, g.hist = is ++ [i] → utf8 (session is).said <+: C ∧ keysOf is <+: T
  ledIn : ∀ n b, s.sys.soft.main = .leds n b → b = (session g.hist).leds ∧ ∃ r, s.app.pc = .newline r
  led : (∀ n b, s.sys.soft.main ≠ .leds n b) → s.app.pc.ledDue = false → s.sys.leds.leds = (session g.hist).leds

/-- The byte that a call of `write_char` begins with. -/
def newCall (m m' : Main) : List (BitVec 8) :=
  match m.writing, m'.writing with
  | none, some b => [b]
  | _, _ => []

/-- The character taken in a cycle. -/
def newTake (s : Machine) (p : Pins) : List (BitVec 8) :=
  match s.sys.soft.main, (s.env p).act with
  | .locked, some .clearRx => s.sys.soft.rxBox.toList
  | _, _ => []

theorem session_snoc (is : List Input) (i : Input) : session (is ++ [i]) = (session is).step i := by
  simp [session]

theorem keysOf_snoc (is : List Input) (i : Input) : keysOf (is ++ [i]) = keysOf is ++ i.key.toList := by
  cases h : i.key <;> simp [keysOf, h]

theorem app_quiet {D : Nat} {s : Machine} {p : Pins} {g : Ghost} {C T : List (BitVec 8)}
    (hi : s.sys.soft.main.enabled = false → s.sys.soft.isr = none) (h : AppInv s g C T) (ha : s.asks p = false) :
    AppInv (s.step D p) (g.step s p) (C ++ newCall s.sys.soft.main (s.step D p).sys.soft.main) (T ++ newTake s p) := by
  have q := quiesce (D := D) hi ha
  have hg : g.step s p = g := by simp [Ghost.step, ha]
  have happ : (s.step D p).app = { s.app with inp := s.input } := by simp [Machine.step, ha]
  have hC : newCall s.sys.soft.main (s.step D p).sys.soft.main = [] := by
    unfold newCall
    cases hw : s.sys.soft.main.writing with
    | some b => rfl
    | none => rw [q.writing hw]
  have hT : newTake s p = [] := by
    unfold newTake
    cases hm : s.sys.soft.main with
    | locked =>
      cases hx : (s.env p).act with
      | none => rfl
      | some op =>
        exfalso
        have hgo : p.go = true := by
          unfold Machine.env at hx
          cases hgo : p.go
          · rw [hgo] at hx; cases hx
          · rfl
        have h1 := hi (by rw [hm]; rfl)
        have h2 : s.sys.soft.access = none := by simp [Soft.access, h1, hm, Main.access]
        simp [Machine.asks, hgo, h1, h2, hm, Main.enabled] at ha
    | _ => rfl
  rw [hg, hC, hT, List.append_nil, List.append_nil]
  obtain ⟨h1, h2, h3, h4, h5, h6, h7⟩ := h
  refine ⟨?_, ?_, ?_, ?_, h5, ?_, ?_⟩
  · rw [happ]; exact h1
  · rw [happ]; exact h2
  · rw [happ]
    show s.app.pc.Ok g.chk (s.step D p).sys.soft.rxBox _ _
    by_cases hk : s.sys.soft.main.lk = true
    · rw [q.rx hk]; exact h3
    · have : s.app.pc.lk = false := by rw [← h4]; simpa using hk
      revert h3 this
      generalize s.app.pc = pc
      cases pc <;> intro h3 this <;> first | exact h3 | cases this
  · rw [happ, q.lk]; exact h4
  · intro n b hm
    rw [happ]
    exact h6 n b (q.ledIn n b hm)
  · intro hm hd
    rw [happ] at hd
    by_cases hl : ∃ n b, s.sys.soft.main = .leds n b
    · obtain ⟨n, b, hl⟩ := hl
      rcases q.ledOut n b hl with g | g
      · exact absurd g (hm n b)
      · rw [g, (h6 n b hl).1]
    · have hl : ∀ n b, s.sys.soft.main ≠ .leds n b := fun n b h => hl ⟨n, b, h⟩
      rw [q.led hl]
      exact h7 hl hd

theorem op_main (f : Soft) (l : Bool) (op : Op) (h : f.main = .app ∨ f.main = .locked) :
    newCall f.main (f.opAct l op).main = match op with | .write b => [b] | _ => [] := by
  rcases h with h | h <;> cases op <;> simp only [Soft.opAct] <;> (try split) <;> simp [newCall, Main.writing, h]

/-- A step that is no input. -/
theorem app_move {s s' : Machine} {g g' : Ghost} {C T T' : List (BitVec 8)} (h : AppInv s g C T) (hh : g'.hist = g.hist)
    (ho : s.app.out = [])
    (ht : s'.app.out ++ utf8 (s'.app.pc.due (session g.hist).phase) = utf8 (s.app.pc.due (session g.hist).phase))
    (hT : T <+: T') (hk : T' ++ s'.app.pc.pend = T ++ s.app.pc.pend)
    (hok : s'.app.pc.Ok g'.chk s'.sys.soft.rxBox (session g.hist).phase (session g.hist).leds)
    (hlk : s'.sys.soft.main.lk = s'.app.pc.lk)
    (h1 : ∀ n b, s'.sys.soft.main = .leds n b → b = (session g.hist).leds ∧ ∃ r, s'.app.pc = .newline r)
    (h2 : (∀ n b, s'.sys.soft.main ≠ .leds n b) → s'.app.pc.ledDue = false → s'.sys.leds.leds = (session g.hist).leds) :
    AppInv s' g' C T' := by
  refine ⟨?_, ?_, ?_, hlk, ?_, ?_, ?_⟩
  · rw [hh, ht]; have := h.text; rw [ho] at this; exact this
  · rw [hh, hk]; exact h.keys
  · rw [hh]; exact hok
  · rw [hh]
    intro is i hi
    exact ⟨(h.prev is i hi).1, (h.prev is i hi).2.trans hT⟩
  · rw [hh]; exact h1
  · rw [hh]; exact h2

/-- A step that is an input. -/
theorem app_input {s s' : Machine} {g g' : Ghost} {C T : List (BitVec 8)} {i : Input} (h : AppInv s g C T) (hh : g'.hist = g.hist ++ [i])
    (ho : s.app.out = []) (hd : s.app.pc.due (session g.hist).phase = []) (hp : s.app.pc.pend = [])
    (more : List Char) (hs : ((session g.hist).step i).said = (session g.hist).said ++ more)
    (ht : s'.app.out ++ utf8 (s'.app.pc.due ((session g.hist).step i).phase) = utf8 more)
    (hk : s'.app.pc.pend = i.key.toList)
    (hok : s'.app.pc.Ok g'.chk s'.sys.soft.rxBox ((session g.hist).step i).phase ((session g.hist).step i).leds)
    (hlk : s'.sys.soft.main.lk = s'.app.pc.lk)
    (h1 : ∀ n b, s'.sys.soft.main ≠ .leds n b)
    (h2 : s'.app.pc.ledDue = false → s'.sys.leds.leds = ((session g.hist).step i).leds) :
    AppInv s' g' C T := by
  have e1 := h.text
  have e2 := h.keys
  rw [ho, hd] at e1
  rw [hp] at e2
  simp only [utf8, List.flatMap_nil, List.append_nil] at e1 e2
  refine ⟨?_, ?_, ?_, hlk, ?_, fun n b hm => absurd hm (h1 n b), ?_⟩
  · rw [hh, session_snoc, ht, hs, utf8_append, e1]; rfl
  · rw [hh, keysOf_snoc, hk, e2]
  · rw [hh, session_snoc]; exact hok
  · rw [hh]
    intro is i' hi
    obtain ⟨hi, hi'⟩ := List.append_inj' hi rfl
    subst hi
    exact ⟨by rw [e1]; exact List.prefix_refl _, by rw [e2]; exact List.prefix_refl _⟩
  · rw [hh, session_snoc]; exact fun _ => h2

/-- A step that is neither an input nor writes anything. -/
theorem app_plain {D : Nat} {s : Machine} {p : Pins} {g : Ghost} {C T : List (BitVec 8)} (h : AppInv s g C T) (ha : s.asks p = true)
    (ho : s.app.out = []) (hg : (g.step s p).hist = g.hist)
    {out : List (BitVec 8)} {pc : Pc} (hn : s.app.next s.sys.soft.rxBox s.sys.soft.count = { s.app with out := out, pc := pc })
    {l : Bool} (hop : s.app.op = .other ∧ l = s.app.pc.lk ∨ s.app.op = .zeroCount ∧ l = s.app.pc.lk ∨ s.app.op = .readGpio ∧ l = s.app.pc.lk ∨
      s.app.op = .lock ∧ l = true ∨ s.app.op = .unlock ∧ l = false)
    (ht : out ++ utf8 (pc.due (session g.hist).phase) = utf8 (s.app.pc.due (session g.hist).phase))
    (hp : pc.pend = s.app.pc.pend)
    (hok : pc.Ok (g.step s p).chk s.sys.soft.rxBox (session g.hist).phase (session g.hist).leds)
    (hlk : l = pc.lk) (hd : pc.ledDue = false → s.app.pc.ledDue = false) :
    AppInv (s.step D p) (g.step s p) (C ++ newCall s.sys.soft.main (s.step D p).sys.soft.main) (T ++ newTake s p) := by
  obtain ⟨a1, a2, a3, a4⟩ := asked (D := D) ha
  have happ : (s.step D p).app = s.app.next s.sys.soft.rxBox s.sys.soft.count := by simp [Machine.step, ha]
  have nl : ∀ n b, s.sys.soft.main ≠ .leds n b := by rcases a3 with a3 | a3 <;> rw [a3] <;> nofun
  have hT : newTake s p = [] := by
    unfold newTake
    rw [a4]
    rcases hop with ⟨k, _⟩ | ⟨k, _⟩ | ⟨k, _⟩ | ⟨k, _⟩ | ⟨k, _⟩ <;> rw [k] <;> rcases a3 with a3 | a3 <;> rw [a3]
  rw [a1, op_main _ _ _ a3, hT]
  have hC : (match s.app.op with | .write b => [b] | _ => []) = ([] : List (BitVec 8)) := by
    rcases hop with ⟨k, _⟩ | ⟨k, _⟩ | ⟨k, _⟩ | ⟨k, _⟩ | ⟨k, _⟩ <;> rw [k]
  rw [hC, List.append_nil, List.append_nil]
  have hr : (s.step D p).sys.soft.rxBox = s.sys.soft.rxBox := by
    rw [a1]
    rcases hop with ⟨k, _⟩ | ⟨k, _⟩ | ⟨k, _⟩ | ⟨k, _⟩ | ⟨k, _⟩ <;> rw [k] <;> rfl
  have hl : (s.step D p).sys.soft.main.lk = l := by
    rw [a1]
    rcases hop with ⟨k, k'⟩ | ⟨k, k'⟩ | ⟨k, k'⟩ | ⟨k, k'⟩ | ⟨k, k'⟩ <;> rw [k, k'] <;> first | exact h.lk | rfl
  have hm : ∀ n b, (s.step D p).sys.soft.main ≠ .leds n b := by
    intro n b
    rw [a1]
    rcases hop with ⟨k, _⟩ | ⟨k, _⟩ | ⟨k, _⟩ | ⟨k, _⟩ | ⟨k, _⟩ <;> rw [k] <;> first | exact nl n b | nofun
  rw [hn] at happ
  refine app_move h hg ho ?_ (List.prefix_refl _) ?_ ?_ ?_ (fun n b hh => absurd hh (hm n b)) ?_
  · rw [happ]; exact ht
  · rw [happ]; show T ++ pc.pend = _; rw [hp]
  · rw [happ, hr]; exact hok
  · rw [happ, hl]; exact hlk
  · intro _ h'
    rw [happ] at h'
    rw [a2]
    exact h.led nl (hd h')

theorem app_write {D : Nat} {s : Machine} {p : Pins} {g : Ghost} {C T : List (BitVec 8)} (h : AppInv s g C T) (ha : s.asks p = true)
    {b : BitVec 8} {bs : List (BitVec 8)} (ho : s.app.out = b :: bs) :
    AppInv (s.step D p) (g.step s p) (C ++ newCall s.sys.soft.main (s.step D p).sys.soft.main) (T ++ newTake s p) := by
  obtain ⟨a1, a2, a3, a4⟩ := asked (D := D) ha
  have happ : (s.step D p).app = s.app.next s.sys.soft.rxBox s.sys.soft.count := by simp [Machine.step, ha]
  have hop : s.app.op = .write b := by simp [App.op, ho]
  have hT : newTake s p = [] := by
    unfold newTake
    rw [a4, hop]
    rcases a3 with a3 | a3 <;> rw [a3]
  rw [a1, op_main _ _ _ a3, hT]
  obtain ⟨h1, h2, h3, h4, h5, h6, h7⟩ := h
  have nl : ∀ n b, s.sys.soft.main ≠ .leds n b := by rcases a3 with a3 | a3 <;> rw [a3] <;> nofun
  have h7 := h7 nl
  have hn : s.app.next s.sys.soft.rxBox s.sys.soft.count = { s.app with out := bs } := by simp [App.next, ho]
  have hg : g.step s p = g := by simp [Ghost.step, ho]
  rw [hop, hg]
  rw [hop] at a1
  have a1' : (s.step D p).sys.soft = { s.sys.soft with main := .retry s.sys.soft.main.lk b } := a1
  rw [hn] at happ
  simp only [List.append_nil]
  refine ⟨?_, ?_, ?_, ?_, ?_, ?_, ?_⟩
  · rw [happ, ← h1, ho]; simp
  · rw [happ]; exact h2
  · rw [happ, a1']; exact h3
  · rw [happ, a1']; exact h4
  · intro is i hh
    obtain ⟨q1, q2⟩ := h5 is i hh
    exact ⟨q1.trans (List.prefix_append _ _), q2⟩
  · rw [a1']; nofun
  · intro _ hd
    rw [happ] at hd
    rw [a2]; exact h7 hd

theorem app_clear {D : Nat} {s : Machine} {p : Pins} {g : Ghost} {C T : List (BitVec 8)} (h : AppInv s g C T) (ha : s.asks p = true)
    (ho : s.app.out = []) (hg : (g.step s p) = g) (hop : s.app.op = .clearRx) (hl : s.app.pc.lk = true)
    {pc : Pc} (hn : s.app.next s.sys.soft.rxBox s.sys.soft.count = { s.app with pc := pc })
    (hd : pc.due (session g.hist).phase = s.app.pc.due (session g.hist).phase)
    (hp : pc.pend = []) (hr : s.app.pc.pend = s.sys.soft.rxBox.toList)
    (hok : pc.Ok g.chk none (session g.hist).phase (session g.hist).leds) (hlk : pc.lk = true) (hled : pc.ledDue = s.app.pc.ledDue) :
    AppInv (s.step D p) (g.step s p) (C ++ newCall s.sys.soft.main (s.step D p).sys.soft.main) (T ++ newTake s p) := by
  obtain ⟨a1, a2, a3, a4⟩ := asked (D := D) ha
  have happ : (s.step D p).app = s.app.next s.sys.soft.rxBox s.sys.soft.count := by simp [Machine.step, ha]
  have nl : ∀ n b, s.sys.soft.main ≠ .leds n b := by rcases a3 with a3 | a3 <;> rw [a3] <;> nofun
  have hm : s.sys.soft.main = .locked := by
    have := h.lk
    rw [hl] at this
    rcases a3 with a3 | a3
    · rw [a3] at this; cases this
    · exact a3
  have hT : newTake s p = s.sys.soft.rxBox.toList := by
    unfold newTake
    rw [a4, hop, hm]
  rw [a1, op_main _ _ _ a3, hT, hop]
  simp only [List.append_nil]
  have a1' : (s.step D p).sys.soft = { s.sys.soft with rxBox := none } := by
    rw [a1, hop, hm]; rfl
  rw [hn] at happ
  rw [hg]
  refine app_move h rfl ho ?_ (List.prefix_append _ _) ?_ ?_ ?_ ?_ ?_
  · rw [happ]
    show s.app.out ++ utf8 (pc.due _) = _
    rw [ho, hd, List.nil_append]
  · rw [happ]
    show _ ++ pc.pend = _
    rw [hp, hr, List.append_nil]
  · rw [happ, a1']; exact hok
  · rw [happ, a1', hm]; exact hlk.symm
  · rw [a1']; exact fun n b hh => absurd hh (nl n b)
  · intro _ h'
    rw [happ] at h'
    rw [a2]
    exact h.led nl (by rw [← hled]; exact h')

theorem app_leds {D : Nat} {s : Machine} {p : Pins} {g : Ghost} {C T : List (BitVec 8)} (h : AppInv s g C T) (ha : s.asks p = true)
    (ho : s.app.out = []) {r : BitVec 8} (hpc : s.app.pc = .leds r) :
    AppInv (s.step D p) (g.step s p) (C ++ newCall s.sys.soft.main (s.step D p).sys.soft.main) (T ++ newTake s p) := by
  obtain ⟨a1, a2, a3, a4⟩ := asked (D := D) ha
  have happ : (s.step D p).app = s.app.next s.sys.soft.rxBox s.sys.soft.count := by simp [Machine.step, ha]
  have hop : s.app.op = .writeLeds r := by simp [App.op, ho, hpc]
  have hT : newTake s p = [] := by
    unfold newTake
    rw [a4, hop]
    rcases a3 with a3 | a3 <;> rw [a3]
  rw [a1, op_main _ _ _ a3, hT, hop]
  rw [hop] at a1
  have a1' : (s.step D p).sys.soft = { s.sys.soft with main := .leds s.sys.soft.main.lk r } := a1
  have hn : s.app.next s.sys.soft.rxBox s.sys.soft.count = { s.app with pc := .newline r } := by simp [App.next, ho, hpc]
  have hg : g.step s p = g := by simp [Ghost.step, ho, hpc]
  have hok := h.ok
  rw [hpc] at hok
  rw [hn] at happ
  simp only [List.append_nil]
  refine app_move h (by rw [hg]) ho ?_ (List.prefix_refl _) ?_ ?_ ?_ ?_ ?_
  · rw [happ, hpc]; show s.app.out ++ _ = _; rw [ho]; rfl
  · rw [happ, hpc]; rfl
  · rw [happ]; exact hok
  · rw [happ, a1']
    show s.sys.soft.main.lk = _
    rw [h.lk, hpc]; rfl
  · intro n b hh
    rw [a1'] at hh
    injection hh with _ hb
    rw [happ, ← hb]
    exact ⟨hok.2.symm, r, rfl⟩
  · intro h'
    rw [a1'] at h'
    exact absurd rfl (h' _ _)

/-- A step that is an input. -/
theorem app_in {D : Nat} {s : Machine} {p : Pins} {g : Ghost} {C T : List (BitVec 8)} (h : AppInv s g C T) (ha : s.asks p = true)
    (ho : s.app.out = []) {i : Input} (hg : (g.step s p).hist = g.hist ++ [i]) (hop : s.app.op = .other)
    {out : List (BitVec 8)} {pc : Pc} (hn : s.app.next s.sys.soft.rxBox s.sys.soft.count = { s.app with out := out, pc := pc })
    (hd : s.app.pc.due (session g.hist).phase = []) (hp : s.app.pc.pend = []) (hl : s.app.pc.lk = true) (hl' : pc.lk = true)
    (more : List Char) (hs : ((session g.hist).step i).said = (session g.hist).said ++ more)
    (ht : out ++ utf8 (pc.due ((session g.hist).step i).phase) = utf8 more)
    (hk : pc.pend = i.key.toList)
    (hok : pc.Ok (g.step s p).chk s.sys.soft.rxBox ((session g.hist).step i).phase ((session g.hist).step i).leds)
    (hled : s.app.pc.ledDue = false) (h2 : pc.ledDue = false → (session g.hist).leds = ((session g.hist).step i).leds) :
    AppInv (s.step D p) (g.step s p) (C ++ newCall s.sys.soft.main (s.step D p).sys.soft.main) (T ++ newTake s p) := by
  obtain ⟨a1, a2, a3, a4⟩ := asked (D := D) ha
  have happ : (s.step D p).app = s.app.next s.sys.soft.rxBox s.sys.soft.count := by simp [Machine.step, ha]
  have nl : ∀ n b, s.sys.soft.main ≠ .leds n b := by rcases a3 with a3 | a3 <;> rw [a3] <;> nofun
  have hT : newTake s p = [] := by
    unfold newTake
    rw [a4, hop]
    rcases a3 with a3 | a3 <;> rw [a3]
  rw [a1, op_main _ _ _ a3, hT, hop]
  rw [hop] at a1
  have a1' : (s.step D p).sys.soft = s.sys.soft := a1
  rw [hn] at happ
  simp only [List.append_nil]
  refine app_input h hg ho hd hp more hs ?_ ?_ ?_ ?_ ?_ ?_
  · rw [happ]; exact ht
  · rw [happ]; exact hk
  · rw [happ, a1']; exact hok
  · rw [happ, a1', h.lk, hl]; exact hl'.symm
  · rw [a1']; exact nl
  · intro h'
    rw [happ] at h'
    rw [a2, ← h2 h']
    exact h.led nl hled

theorem app_ask {D : Nat} {s : Machine} {p : Pins} {g : Ghost} {C T : List (BitVec 8)} (h : AppInv s g C T) (ha : s.asks p = true) :
    AppInv (s.step D p) (g.step s p) (C ++ newCall s.sys.soft.main (s.step D p).sys.soft.main) (T ++ newTake s p) := by
  cases ho : s.app.out with
  | cons b bs => exact app_write h ha ho
  | nil =>
    have hok := h.ok
    cases hpc : s.app.pc with
    | init r =>
      rw [hpc] at hok
      refine app_plain h ha ho (by simp [Ghost.step, hpc]) (out := initRow) (pc := .row ⟨r, 0, initBuf⟩) (by simp [App.next, ho, hpc])
        (l := s.app.pc.lk) (by simp [App.op, ho, hpc]) ?_ (by rw [hpc]; rfl) ⟨0, hok, show 0 < 4 by decide, initBuf_eq r⟩ (by rw [hpc]; rfl) (by rw [hpc]; exact id)
      rw [hpc]; simp only [Pc.due]; rw [initRow_eq, utf8_append]
    | row d =>
      rw [hpc] at hok
      obtain ⟨j, k1, k2, k3⟩ := hok
      have hr := demoRow_eq d.rule k2 j
      rw [← k3] at hr
      refine app_plain h ha ho (by simp [Ghost.step, hpc]) (out := (demoRow d.rule d.style d.buf).1)
        (pc := .zero { d with buf := (demoRow d.rule d.style d.buf).2 }) (by simp [App.next, ho, hpc])
        (l := s.app.pc.lk) (by simp [App.op, ho, hpc]) ?_ (by rw [hpc]; rfl) ⟨j, k1, k2, by rw [hr]⟩ (by rw [hpc]; rfl) (by rw [hpc]; exact id)
      rw [hpc, hr, k1]; simp [Pc.due, Phase.row, utf8]
    | zero d =>
      rw [hpc] at hok
      exact app_plain h ha ho (by simp [Ghost.step, hpc]) (out := []) (pc := .sample d) (by simp [App.next, ho, hpc])
        (l := s.app.pc.lk) (by simp [App.op, ho, hpc]) (by rw [hpc]; rfl) (by rw [hpc]; rfl) hok (by rw [hpc]; rfl) (by rw [hpc]; exact id)
    | sample d =>
      rw [hpc] at hok
      exact app_plain h ha ho (by simp [Ghost.step, hpc]) (out := []) (pc := .sampled d) (by simp [App.next, ho, hpc])
        (l := s.app.pc.lk) (by simp [App.op, ho, hpc]) (by rw [hpc]; rfl) (by rw [hpc]; rfl) hok (by rw [hpc]; rfl) (by rw [hpc]; exact id)
    | sampled d =>
      rw [hpc] at hok
      exact app_plain h ha ho (by simp [Ghost.step, hpc]) (out := []) (pc := .wait d (s.app.inp &&& 1 != 0)) (by simp [App.next, ho, hpc])
        (l := s.app.pc.lk) (by simp [App.op, ho, hpc]) (by rw [hpc]; rfl) (by rw [hpc]; rfl) hok (by rw [hpc]; rfl) (by rw [hpc]; exact id)
    | wait d chk =>
      rw [hpc] at hok
      refine app_plain h ha ho (by simp [Ghost.step, hpc]) (out := [])
        (pc := if s.sys.soft.count.toNat < 144 then (if chk then .poll d else .wait d chk) else .decide d chk) ?_
        (l := s.app.pc.lk) (by simp [App.op, ho, hpc]) (by rw [hpc]; repeat' split <;> try rfl) (by rw [hpc]; repeat' split <;> try rfl) ?_ (by rw [hpc]; repeat' split <;> try rfl)
        (by rw [hpc]; exact fun _ => rfl)
      · simp only [App.next, ho, hpc]; split <;> rfl
      · repeat' split
        all_goals exact hok
    | poll d =>
      rw [hpc] at hok
      exact app_plain h ha ho (by simp [Ghost.step, hpc]) (out := []) (pc := .poll2 d) (by simp [App.next, ho, hpc])
        (l := s.app.pc.lk) (by simp [App.op, ho, hpc]) (by rw [hpc]; rfl) (by rw [hpc]; rfl) hok (by rw [hpc]; rfl) (by rw [hpc]; exact id)
    | poll2 d =>
      rw [hpc] at hok
      exact app_plain h ha ho (by simp [Ghost.step, hpc]) (out := []) (pc := .polled d s.app.inp) (by simp [App.next, ho, hpc])
        (l := s.app.pc.lk) (by simp [App.op, ho, hpc]) (by rw [hpc]; rfl) (by rw [hpc]; rfl) hok (by rw [hpc]; rfl) (by rw [hpc]; exact id)
    | polled d v =>
      rw [hpc] at hok
      exact app_plain h ha ho (by simp [Ghost.step, hpc]) (out := []) (pc := .wait d (v &&& (s.app.inp &&& 1) != 0)) (by simp [App.next, ho, hpc])
        (l := s.app.pc.lk) (by simp [App.op, ho, hpc]) (by rw [hpc]; rfl) (by rw [hpc]; rfl) hok (by rw [hpc]; rfl) (by rw [hpc]; exact id)
    | decide d chk =>
      rw [hpc] at hok
      obtain ⟨j, k1, k2, k3⟩ := hok
      refine app_plain h ha ho (by simp [Ghost.step, ha, ho, hpc]) (out := []) (pc := .ctrl (if chk then { d with style := (d.style + 1) % 4 } else d))
        (by simp [App.next, ho, hpc])
        (l := s.app.pc.lk) (by simp [App.op, ho, hpc]) (by rw [hpc]; rfl) (by rw [hpc]; rfl) ?_ (by rw [hpc]; rfl) (by rw [hpc]; exact id)
      have : (g.step s p).chk = chk := by simp [Ghost.step, ha, ho, hpc]
      rw [this]
      exact ⟨j, d.style, by cases chk <;> exact k1, k2, by cases chk <;> rfl, by cases chk <;> exact k3⟩
    | ctrl d =>
      rw [hpc] at hok
      exact app_plain h ha ho (by simp [Ghost.step, hpc]) (out := []) (pc := .look d) (by simp [App.next, ho, hpc])
        (l := true) (by simp [App.op, ho, hpc]) (by rw [hpc]; rfl) (by rw [hpc]; rfl)
        (by rw [show g.step s p = g by simp [Ghost.step, hpc]]; exact hok) rfl (by rw [hpc]; exact id)
    | clear d c =>
      rw [hpc] at hok
      refine app_clear h ha ho (by simp [Ghost.step, hpc]) (by simp [App.op, ho, hpc]) (by rw [hpc]; rfl) (pc := .unlock d (c == 3))
        (by simp [App.next, ho, hpc]) ?_ rfl (by rw [hpc, hok.1]; rfl) ?_ rfl (by rw [hpc]; rfl)
      · rw [hpc]
        by_cases hc : c = 3
        · subst hc; rfl
        · rw [show (c == 3) = false by simpa using hc]
          show Phase.row _ = if c = 3 then _ else _
          rw [if_neg hc]
      · obtain ⟨_, k2⟩ := hok
        by_cases hc : c = 3
        · rw [if_pos hc] at k2
          subst hc; exact k2
        · rw [if_neg hc] at k2
          rw [show (c == 3) = false by simpa using hc]
          exact k2
    | unlock d c =>
      rw [hpc] at hok
      cases c with
      | true =>
        exact app_plain h ha ho (by simp [Ghost.step, hpc]) (out := []) (pc := .setRule) (by simp [App.next, ho, hpc])
          (l := false) (by simp [App.op, ho, hpc]) (by rw [hpc]; rfl) (by rw [hpc]; rfl) hok rfl (by rw [hpc]; exact id)
      | false =>
        exact app_plain h ha ho (by simp [Ghost.step, hpc]) (out := []) (pc := .row d) (by simp [App.next, ho, hpc])
          (l := false) (by simp [App.op, ho, hpc]) (by rw [hpc]; rfl) (by rw [hpc]; rfl) hok rfl (by rw [hpc]; exact id)
    | setRule =>
      rw [hpc] at hok
      refine app_plain h ha ho (by simp [Ghost.step, hpc]) (out := prompt) (pc := .read []) (by simp [App.next, ho, hpc])
        (l := s.app.pc.lk) (by simp [App.op, ho, hpc]) ?_ (by rw [hpc]; rfl) ⟨hok, by decide⟩ (by rw [hpc]; rfl) (by rw [hpc]; exact id)
      rw [hpc, prompt_eq]
      show utf8 promptText ++ [] = utf8 promptText
      rw [List.append_nil]
    | read buf =>
      rw [hpc] at hok
      exact app_plain h ha ho (by simp [Ghost.step, hpc]) (out := []) (pc := .readLook buf) (by simp [App.next, ho, hpc])
        (l := true) (by simp [App.op, ho, hpc]) (by rw [hpc]; rfl) (by rw [hpc]; rfl) hok rfl (by rw [hpc]; exact id)
    | readClear buf =>
      rw [hpc] at hok
      obtain ⟨k1, k2⟩ := hok
      exact app_clear h ha ho (by simp [Ghost.step, hpc]) (by simp [App.op, ho, hpc]) (by rw [hpc]; rfl) (pc := .readUnlock buf)
        (by simp [App.next, ho, hpc]) (by rw [hpc]; rfl) rfl (by rw [hpc, k1]; rfl) k2 rfl (by rw [hpc]; rfl)
    | readUnlock buf =>
      rw [hpc] at hok
      obtain ⟨k1, k2⟩ := hok
      by_cases hb : buf.length < 3
      · rw [if_pos hb] at k2
        exact app_plain h ha ho (by simp [Ghost.step, hpc]) (out := []) (pc := .read buf) (by simp [App.next, ho, hpc, hb])
          (l := false) (by simp [App.op, ho, hpc]) (by rw [hpc]; simp [Pc.due, hb]) (by rw [hpc]; rfl) ⟨k2, hb⟩ rfl
          (by rw [hpc]; intro _; simp [Pc.ledDue]; omega)
      · rw [if_neg hb] at k2
        exact app_plain h ha ho (by simp [Ghost.step, hpc]) (out := []) (pc := .leds (readRule buf)) (by simp [App.next, ho, hpc, hb])
          (l := false) (by simp [App.op, ho, hpc]) (by rw [hpc]; simp [Pc.due, hb]) (by rw [hpc]; rfl) (by rw [readRule_eq]; exact k2) rfl
          (by intro hh; cases hh)
    | leds r => exact app_leds h ha ho hpc
    | newline r =>
      rw [hpc] at hok
      refine app_plain h ha ho (by simp [Ghost.step, hpc]) (out := encodeUtf8 0x0a) (pc := .init r) (by simp [App.next, ho, hpc])
        (l := s.app.pc.lk) (by simp [App.op, ho, hpc]) ?_ (by rw [hpc]; rfl) hok.1 (by rw [hpc]; rfl) (by rw [hpc]; exact id)
      rw [hpc]; simp only [Pc.due]
      rw [show encodeUtf8 0x0a = utf8 ['\n'] by decide +kernel]
      simp [utf8]
    | look d =>
      rw [hpc] at hok
      obtain ⟨j, st, k1, k2, k3, k4⟩ := hok
      have hg : (g.step s p).hist = g.hist ++ [⟨g.chk, s.sys.soft.rxBox⟩] := by simp [Ghost.step, ha, ho, hpc]
      cases hr : s.sys.soft.rxBox with
      | none =>
        rw [hr] at hg
        have hst : (session g.hist).step ⟨g.chk, none⟩ = { session g.hist with said := (session g.hist).said ++ rowText d.rule d.style (j + 1), phase := .demo d.rule d.style (j + 1) } := by
          unfold Session.step
          rw [k1]
          simp [k3]
        refine app_in h ha ho hg (by simp [App.op, ho, hpc]) (out := []) (pc := .unlock d false) (by simp [App.next, ho, hpc, hr])
          (by rw [hpc]; rfl) (by rw [hpc]; rfl) (by rw [hpc]; rfl) rfl (rowText d.rule d.style (j + 1)) (by rw [hst]) (by rw [hst]; rfl) rfl ?_ (by rw [hpc]; rfl)
          (fun _ => by rw [hst])
        rw [hst]
        exact ⟨j + 1, rfl, by rw [k3]; split <;> omega, k4⟩
      | some c =>
        rw [hr] at hg
        by_cases hc : c = 3
        · have hst : (session g.hist).step ⟨g.chk, some c⟩ = { session g.hist with said := (session g.hist).said ++ promptText, phase := .ask [] } := by
            unfold Session.step
            rw [k1]
            simp only [hc, if_true]
            rfl
          refine app_in h ha ho hg (by simp [App.op, ho, hpc]) (out := []) (pc := .clear d c) (by simp [App.next, ho, hpc, hr])
            (by rw [hpc]; rfl) (by rw [hpc]; rfl) (by rw [hpc]; rfl) rfl promptText (by rw [hst]) ?_ rfl ?_ (by rw [hpc]; rfl)
            (fun _ => by rw [hst])
          · rw [List.nil_append]
            show utf8 (if c = 3 then _ else _) = _
            rw [if_pos hc]
          · rw [hst]
            refine ⟨hr, ?_⟩
            rw [if_pos hc]
        · have hst : (session g.hist).step ⟨g.chk, some c⟩ = { session g.hist with said := (session g.hist).said ++ rowText d.rule d.style (j + 1), phase := .demo d.rule d.style (j + 1) } := by
            unfold Session.step
            rw [k1]
            simp only [Option.some.injEq, hc, if_false, k3]
          refine app_in h ha ho hg (by simp [App.op, ho, hpc]) (out := []) (pc := .clear d c) (by simp [App.next, ho, hpc, hr])
            (by rw [hpc]; rfl) (by rw [hpc]; rfl) (by rw [hpc]; rfl) rfl (rowText d.rule d.style (j + 1)) (by rw [hst]) ?_ rfl ?_ (by rw [hpc]; rfl)
            (fun _ => by rw [hst])
          · rw [List.nil_append, hst]
            show utf8 (if c = 3 then _ else _) = _
            rw [if_neg hc]
            rfl
          · rw [hst]
            refine ⟨hr, ?_⟩
            rw [if_neg hc]
            exact ⟨j + 1, rfl, by rw [k3]; split <;> omega, k4⟩
    | readLook buf =>
      rw [hpc] at hok
      obtain ⟨k1, k2⟩ := hok
      cases hr : s.sys.soft.rxBox with
      | none =>
        refine app_plain h ha ho (by simp [Ghost.step, hpc, hr]) (out := []) (pc := .readUnlock buf) (by simp [App.next, ho, hpc, hr])
          (l := true) (by simp [App.op, ho, hpc, Pc.lk]) (by rw [hpc]; simp [Pc.due, k2]) (by rw [hpc]; rfl) ?_ rfl (by rw [hpc]; exact fun _ => rfl)
        refine ⟨by omega, ?_⟩
        rw [if_pos k2]
        exact k1
      | some b =>
        have hg : (g.step s p).hist = g.hist ++ [⟨false, some b⟩] := by simp [Ghost.step, ha, ho, hpc, hr]
        by_cases hb : buf.length < 2
        · have hst : (session g.hist).step ⟨false, some b⟩ = { session g.hist with said := (session g.hist).said ++ [Char.ofNat b.toNat], phase := .ask (buf ++ [b]) } := by
            unfold Session.step
            rw [k1]
            simp only [if_pos hb]
          have h3 : (buf ++ [b]).length < 3 := by simp; omega
          refine app_in h ha ho hg (by simp [App.op, ho, hpc]) (out := encodeUtf8 b.toNat) (pc := .readClear (buf ++ [b])) (by simp [App.next, ho, hpc, hr])
            (by rw [hpc]; rfl) (by rw [hpc]; rfl) (by rw [hpc]; rfl) rfl [Char.ofNat b.toNat] (by rw [hst]) ?_ (by simp [Pc.pend]) ?_ (by rw [hpc]; rfl)
            (fun _ => by rw [hst])
          · simp only [Pc.due, if_pos h3]
            rw [encode_byte]; simp [utf8]
          · rw [hst]
            refine ⟨by rw [hr]; simp, by omega, ?_⟩
            rw [if_pos h3]
        · have hst : (session g.hist).step ⟨false, some b⟩ = { said := (session g.hist).said ++ ([Char.ofNat b.toNat] ++ (['\n'] ++ firstRow ++ rowText (ruleOf (buf ++ [b])) 0 0)), phase := .demo (ruleOf (buf ++ [b])) 0 0, leds := ruleOf (buf ++ [b]) } := by
            unfold Session.step
            rw [k1]
            simp only [if_neg hb]
            simp
          have h3 : ¬ (buf ++ [b]).length < 3 := by simp; omega
          have h4 : (buf ++ [b]).length ≤ 3 := by simp; omega
          refine app_in h ha ho hg (by simp [App.op, ho, hpc]) (out := encodeUtf8 b.toNat) (pc := .readClear (buf ++ [b])) (by simp [App.next, ho, hpc, hr])
            (by rw [hpc]; rfl) (by rw [hpc]; rfl) (by rw [hpc]; rfl) rfl ([Char.ofNat b.toNat] ++ (['\n'] ++ firstRow ++ rowText (ruleOf (buf ++ [b])) 0 0)) (by rw [hst]) ?_ (by simp [Pc.pend]) ?_ (by rw [hpc]; rfl)
            ?_
          · simp only [Pc.due, if_neg h3]
            rw [encode_byte, hst, ← utf8_append]
            rfl
          · rw [hst]
            refine ⟨by rw [hr]; simp, h4, ?_⟩
            rw [if_neg h3]
            exact ⟨rfl, rfl⟩
          · intro hd
            simp [Pc.ledDue] at hd
            omega

theorem appInv_at (D : Nat) (p : Nat → Pins) (n : Nat) :
    AppInv (Machine.at_ D p n) (ghost D p n) (calls D (Machine.envs D p) n) (taken D (Machine.envs D p) n) := by
  induction n with
  | zero =>
    refine ⟨?_, rfl, rfl, rfl, ?_, nofun, fun _ _ => rfl⟩
    · show [] ++ ([] ++ utf8 (firstRow ++ rowText 110 0 0)) = _
      rfl
    · intro is i h
      exact absurd (congrArg List.length h) (by simp [ghost])
  | succ n ih =>
    have hi := main_isr_none (D := D) (e := Machine.envs D p) n
    rw [← at_sys] at hi
    have h1 : calls D (Machine.envs D p) (n + 1) = calls D (Machine.envs D p) n ++
        newCall (Machine.at_ D p n).sys.soft.main ((Machine.at_ D p n).step D (p n)).sys.soft.main := by
      have : ((Machine.at_ D p n).step D (p n)).sys = (Machine.at_ D p (n + 1)).sys := rfl
      rw [this, at_sys, at_sys]
      rfl
    have h2 : taken D (Machine.envs D p) (n + 1) = taken D (Machine.envs D p) n ++ newTake (Machine.at_ D p n) (p n) := by
      unfold newTake
      rw [at_sys]
      rfl
    rw [h1, h2]
    cases ha : (Machine.at_ D p n).asks (p n)
    · exact app_quiet hi ih ha
    · exact app_ask ih ha

end Sentinel.Fw
