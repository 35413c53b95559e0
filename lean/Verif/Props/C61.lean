import Verif.Model.Output

/-!
# C61: messages arrive where they are redirected to

`expected` is the meaning of a program: a text goes to the object of the last accepted `redirect_stdout` that is not followed by
`restore_stdout`, otherwise to the standard output.
-/

namespace Pdffit.C61
open Outp

/-- The text that `x` has to receive from the program when `t` is the destination at its start. -/
def expected (E : Env) (x : Tgt) : Tgt → List Act → Text
  | _, [] => []
  | t, .redirect f :: l => expected E x (if E.filelike f then .file f else t) l
  | _, .restore :: l => expected E x .std l
  | t, .print s :: l => (if x = t then s else []) ++ expected E x t l
  | t, .engine s :: l => (if x = t then s else []) ++ expected E x t l
  | t, .refine ms :: l => (if x = t then ms.flatten else []) ++ expected E x t l

/-- The destination at the end. -/
def final (E : Env) : Tgt → List Act → Tgt
  | t, [] => t
  | t, .redirect f :: l => final E (if E.filelike f then .file f else t) l
  | _, .restore :: l => final E .std l
  | t, _ :: l => final E t l

/-- Python messages are not written between a `restore_stdout` and the next accepted `redirect_stdout`. `b`: such a phase is running. -/
def Quiet (E : Env) : Bool → List Act → Prop
  | _, [] => True
  | b, .redirect f :: l => Quiet E (if E.filelike f then false else b) l
  | _, .restore :: l => Quiet E true l
  | b, .print _ :: l => b = false ∧ Quiet E b l
  | b, _ :: l => Quiet E b l

/-- All objects take all texts. -/
def Accepting (E : Env) : Prop := ∀ f x, E.accepts f x = true

/-- The state between calls of one thread, with destination `t` of the engine. -/
structure Inv (s : St) (t : Tgt) (b : Bool) : Prop where
  tgt : (t = .std ∧ s.sb = none ∧ s.pout = none) ∨ ∃ f, t = .file f ∧ s.sb = some f ∧ s.pout = some .py
  py : b = false → s.pyout = t
  refs : ∀ f, s.refs f = if t = .file f then 1 else 0
  calm : s.pending = false

theorem inv_init : Inv init .std false := ⟨.inl ⟨rfl, rfl, rfl⟩, fun _ => rfl, fun f => by simp [init], rfl⟩

section
variable {E : Env}

theorem run_append (s : St) (l₁ l₂ : List Ev) : run E s (l₁ ++ l₂) = match run E s l₁ with
    | .ok s' => run E s' l₂
    | .err e => .err e
    | .ub => .ub := by
  induction l₁ generalizing s with
  | nil => rfl
  | cons e l ih =>
    rw [List.cons_append, run, run]
    cases step E s e with
    | ok s' => exact ih s'
    | err e => exact ih s
    | ub => rfl

theorem upd_self {α β : Type} [DecidableEq α] (f : α → β) (a : α) (b : β) : upd f a b a = b := if_pos rfl
theorem upd_ne {α β : Type} [DecidableEq α] (f : α → β) {a x : α} (b : β) (h : x ≠ a) : upd f a b x = f x := if_neg h

theorem arrive_log (s : St) (t x : Tgt) (y : Text) : (s.arrive t y).log x = s.log x ++ if x = t then y else [] := by
  unfold St.arrive
  by_cases h : x = t
  · subst h; simp [upd_self]
  · simp [upd_ne _ _ h, h]

/-- The messages of a `refine_step` collected in `msgout`. -/
theorem outs_msg (ms : List Text) (s : St) (y : Text) (hp : s.pout = some (.msg 0)) (hh : s.helper 0 = some y) :
    ∃ s', run E s (ms.map (Ev.out 0)) = .ok s' ∧ s'.pout = some (.msg 0) ∧ s'.helper 0 = some (y ++ ms.flatten) ∧ s'.sb = s.sb ∧
      s'.pyout = s.pyout ∧ s'.refs = s.refs ∧ s'.log = s.log ∧ s'.pending = s.pending := by
  induction ms generalizing s y with
  | nil => exact ⟨s, rfl, hp, by simpa using hh, rfl, rfl, rfl, rfl, rfl⟩
  | cons m l ih =>
    obtain ⟨sb, pout, pyout, refs, log, helper, pending⟩ := s
    obtain rfl : pout = _ := hp
    replace hh : helper 0 = some y := hh
    obtain ⟨s', h1, h2, h3, h4, h5, h6, h7, h8⟩ := ih ⟨sb, some (.msg 0), pyout, refs, log, upd helper 0 (some (y ++ m)), pending⟩
      (y ++ m) rfl (upd_self helper 0 (some (y ++ m)))
    refine ⟨s', ?_, h2, ?_, h4, h5, h6, h7, h8⟩
    · rw [List.map_cons, run]
      simp only [step, hh, if_true]
      exact h1
    · rw [h3]; simp

theorem outs_std (ms : List Text) (s : St) (hp : s.pout = none) :
    ∃ s', run E s (ms.map (Ev.out 0)) = .ok s' ∧ s'.pout = none ∧ s'.sb = s.sb ∧
      s'.pyout = s.pyout ∧ s'.refs = s.refs ∧ s'.pending = s.pending ∧ ∀ x, s'.log x = s.log x ++ if x = .std then ms.flatten else [] := by
  induction ms generalizing s with
  | nil => exact ⟨s, rfl, hp, rfl, rfl, rfl, rfl, by simp⟩
  | cons m l ih =>
    obtain ⟨s', h1, h2, h3, h4, h5, h6, h7⟩ := ih (s.arrive .std m) hp
    refine ⟨s', ?_, h2, h3, h4, h5, h6, fun x => ?_⟩
    · rw [List.map_cons, run]
      simp only [step, hp]
      exact h1
    · rw [h7, arrive_log]
      split <;> simp

theorem act_inv (ha : Accepting E) {s : St} {t : Tgt} {b : Bool} (I : Inv s t b) (a : Act) (hq : ∀ x, a = .print x → b = false) :
    ∃ s', run E s a.events = .ok s' ∧ Inv s' (final E t [a]) (match a with
      | .redirect f => if E.filelike f then false else b
      | .restore => true
      | _ => b) ∧ ∀ x, s'.log x = s.log x ++ expected E x t [a] := by
  have hw : ∀ (s : St) f x, s.write E f x = s.arrive (.file f) x := fun s f x => by unfold St.write; rw [if_pos (ha f x)]
  cases a with
  | redirect f =>
    by_cases hf : E.filelike f
    · simp only [Act.events, run, step, hf, if_true, final, expected]
      refine ⟨_, rfl, ⟨.inr ⟨f, rfl, rfl, ?_⟩, fun _ => rfl, fun g => ?_, I.calm⟩, fun x => by simp⟩
      · rcases I.tgt with ⟨-, h, h'⟩ | ⟨g, -, h, h'⟩ <;> simp [h']
      · have r := I.refs
        rcases I.tgt with ⟨rfl, h, h'⟩ | ⟨k, rfl, h, h'⟩
        · rw [h]
          simp only [addRef, upd, r, Tgt.file.injEq, reduceCtorEq]
          by_cases e : g = f
          · subst e; simp
          · simp [e, Ne.symm e]
        · rw [h]
          simp only [addRef, upd, r, Tgt.file.injEq]
          by_cases e : g = f
          · subst e
            by_cases e' : g = k
            · subst e'; simp
            · simp [e', Ne.symm e']
          · by_cases e' : g = k
            · subst e'; simp [e, Ne.symm e]
            · simp [e, e', Ne.symm e, Ne.symm e']
    · simp only [Act.events, run, step, hf, final, expected]
      exact ⟨s, rfl, I, fun x => by simp⟩
  | restore =>
    simp only [Act.events, run, step, final, expected]
    refine ⟨_, rfl, ⟨.inl ⟨rfl, rfl, rfl⟩, fun h => by simp at h, fun g => ?_, I.calm⟩, fun x => by simp⟩
    have r := I.refs
    rcases I.tgt with ⟨rfl, h, h'⟩ | ⟨k, rfl, h, h'⟩
    · simp [h, r]
    · rw [h]
      simp only [addRef, upd, r, Tgt.file.injEq, reduceCtorEq, if_false]
      by_cases e : g = k
      · subst e; simp
      · simp [e, Ne.symm e]
  | print x =>
    have hp := I.py (hq x rfl)
    simp only [Act.events, run, step, final, expected, List.append_nil]
    rcases I.tgt with ⟨rfl, h, h'⟩ | ⟨k, rfl, h, h'⟩
    · rw [hp]
      exact ⟨_, rfl, ⟨I.tgt, I.py, I.refs, I.calm⟩, fun y => arrive_log _ _ _ _⟩
    · rw [hp]
      simp only [hw]
      exact ⟨_, rfl, ⟨I.tgt, I.py, I.refs, I.calm⟩, fun y => arrive_log _ _ _ _⟩
  | engine x =>
    simp only [Act.events, run, step, final, expected, List.append_nil]
    rcases I.tgt with ⟨rfl, h, h'⟩ | ⟨k, rfl, h, h'⟩
    · rw [h']
      exact ⟨_, rfl, ⟨I.tgt, I.py, I.refs, I.calm⟩, fun y => arrive_log _ _ _ _⟩
    · rw [h', h]
      simp only [hw]
      exact ⟨_, rfl, ⟨I.tgt, I.py, I.refs, I.calm⟩, fun y => arrive_log _ _ _ _⟩
  | refine ms =>
    simp only [Act.events, final, expected, List.append_nil]
    obtain ⟨sb, pout, pyout, refs, log, helper, pending⟩ := s
    rcases I.tgt with ⟨rfl, h, h'⟩ | ⟨k, rfl, h, h'⟩ <;> obtain rfl : sb = _ := h <;> obtain rfl : pout = _ := h'
    · rw [run]
      simp only [step]
      obtain ⟨s', h1, h2, h3, h4, h5, h6, h7⟩ := outs_std (E := E) ms ⟨none, none, pyout, refs, log, upd helper 0 (some []), pending⟩ rfl
      rw [run_append, h1]
      simp only [run, step, h3]
      refine ⟨_, rfl, ⟨.inl ⟨rfl, rfl, h2⟩, fun hb => h4.trans (I.py hb), fun f => ?_, h6.trans I.calm⟩, h7⟩
      show s'.refs f = _
      rw [h5]
      exact I.refs f
    · rw [run]
      simp only [step]
      obtain ⟨s', h1, h2, h3, h4, h5, h6, h7, h8⟩ := outs_msg (E := E) ms
        ⟨some k, some (.msg 0), pyout, refs, log, upd helper 0 (some []), pending⟩ [] rfl (upd_self helper 0 (some []))
      rw [run_append, h1]
      simp only [run, step, h4, h3, hw, List.nil_append]
      refine ⟨_, rfl, ⟨.inr ⟨k, rfl, rfl, rfl⟩, fun hb => h5.trans (I.py hb), fun f => ?_, h8.trans I.calm⟩, fun x => ?_⟩
      · show s'.refs f = _
        rw [h6]
        exact I.refs f
      · rw [arrive_log]
        show s'.log x ++ _ = _
        rw [h7]

theorem expected_cons (x t : Tgt) (a : Act) (l : List Act) : expected E x t (a :: l) = expected E x t [a] ++ expected E x (final E t [a]) l := by
  cases a <;> simp [expected, final]

theorem final_cons (t : Tgt) (a : Act) (l : List Act) : final E t (a :: l) = final E (final E t [a]) l := by
  cases a <;> simp [final]

theorem acts_inv (ha : Accepting E) (l : List Act) {s : St} {t : Tgt} {b : Bool} (I : Inv s t b) (hq : Quiet E b l) :
    ∃ s', run E s (l.flatMap Act.events) = .ok s' ∧ (∃ b', Inv s' (final E t l) b') ∧ ∀ x, s'.log x = s.log x ++ expected E x t l := by
  induction l generalizing s t b with
  | nil => exact ⟨s, rfl, ⟨b, I⟩, by simp [expected]⟩
  | cons a l ih =>
    obtain ⟨s1, h1, I1, h2⟩ := act_inv ha I a (by
      rintro x rfl
      exact hq.1)
    obtain ⟨s2, h3, I2, h4⟩ := ih I1 (by
      cases a with
      | redirect f => exact hq
      | restore => exact hq
      | print x => exact hq.2
      | engine x => exact hq
      | refine ms => exact hq)
    refine ⟨s2, ?_, ?_, fun x => ?_⟩
    · rw [List.flatMap_cons, run_append, h1]
      exact h3
    · rw [final_cons]
      exact I2
    · rw [h4, h2, List.append_assoc, ← expected_cons]

end

/-- In a program with one thread, in which Python messages are not written after `restore_stdout`, every destination receives exactly
its texts in the order in which they were written. At the end one reference is held, to the destination if it is a file. Nothing is accessed
after its deletion. -/
theorem C61_text_partial (E : Env) (ha : Accepting E) (l : List Act) (hq : Quiet E false l) :
    ∃ s, run E init (l.flatMap Act.events) = .ok s ∧ (∀ x, s.log x = expected E x .std l) ∧
      (∀ f, s.refs f = if final E .std l = .file f then 1 else 0) ∧ s.pending = false := by
  obtain ⟨s, h1, ⟨b, I⟩, h2⟩ := acts_inv ha l inv_init hq
  exact ⟨s, h1, h2, I.refs, I.calm⟩

def isPrint : Act → Bool
  | .print _ => true
  | _ => false

theorem quiet_of (E : Env) (l : List Act) (h : ∀ a ∈ l, isPrint a = false) (b : Bool) : Quiet E b l := by
  induction l generalizing b with
  | nil => trivial
  | cons a l ih =>
    have h1 := h a (by simp)
    have h2 := fun b => ih (fun a ha => h a (by simp [ha])) b
    cases a with
    | redirect f => exact h2 _
    | restore => exact h2 _
    | print x => simp [isPrint] at h1
    | engine x => exact h2 _
    | refine ms => exact h2 _

/-- The engine alone: no restriction. -/
theorem C61_engine (E : Env) (ha : Accepting E) (l : List Act) (hl : ∀ a ∈ l, isPrint a = false) :
    ∃ s, run E init (l.flatMap Act.events) = .ok s ∧ ∀ x, s.log x = expected E x .std l := by
  obtain ⟨s, h1, h2, -⟩ := C61_text_partial E ha l (quiet_of E l hl false)
  exact ⟨s, h1, h2⟩

/-- An object without `write` and `flush` is refused and changes nothing. -/
theorem C61_refused (E : Env) (f : File) (h : E.filelike f = false) (s : St) (l : List Ev) :
    step E s (.redirect f) = .err .other ∧ run E s (.redirect f :: l) = run E s l := by
  have : step E s (.redirect f) = .err .other := by simp [step, h]
  exact ⟨this, by rw [run, this]⟩

/-! ## Threads -/

/-- The events of `refine_step` and of other calls with messages in any number of threads. -/
def NoRedirect : Ev → Prop
  | .redirect _ => False
  | _ => True

/-- The messages of a history. -/
def said : Ev → Text
  | .print s => s
  | .engine s => s
  | .out _ s => s
  | _ => []

theorem free_run (E : Env) (l : List Ev) (hl : ∀ e ∈ l, NoRedirect e) (s : St) (h1 : s.sb = none) (h2 : s.pout = none) (h3 : s.pyout = .std) :
    ∃ s', run E s l = .ok s' ∧ s'.log .std = s.log .std ++ l.flatMap said := by
  induction l generalizing s with
  | nil => exact ⟨s, rfl, by simp⟩
  | cons e l ih =>
    have hr := fun e he => hl e (List.mem_cons_of_mem _ he)
    have arr : ∀ x, ∃ s', run E (s.arrive .std x) l = .ok s' ∧ s'.log .std = s.log .std ++ (x ++ l.flatMap said) := by
      intro x
      obtain ⟨s', a, b⟩ := ih hr (s.arrive .std x) h1 h2 h3
      refine ⟨s', a, ?_⟩
      rw [b, arrive_log, if_pos rfl, List.append_assoc]
    rw [run, List.flatMap_cons]
    cases e with
    | redirect f => exact absurd (hl (.redirect f) (by simp)) id
    | restore =>
      simp only [step, h1, said, List.nil_append]
      exact ih hr _ rfl rfl h3
    | print x => simp only [step, h3, said]; exact arr x
    | engine x => simp only [step, h2, said]; exact arr x
    | start t =>
      simp only [step, h1, said, List.nil_append]
      exact ih hr _ rfl h2 h3
    | out t x => simp only [step, h2, said]; exact arr x
    | stop t =>
      simp only [step, h1, said, List.nil_append]
      exact ih hr _ rfl h2 h3

/-- Without redirection threads may run in any way: all texts arrive in the order in which they are written. -/
theorem C61_threads_partial (E : Env) (l : List Ev) (hl : ∀ e ∈ l, NoRedirect e) :
    ∃ s, run E init l = .ok s ∧ s.log .std = l.flatMap said := by
  obtain ⟨s, h1, h2⟩ := free_run E l hl init rfl rfl rfl
  exact ⟨s, h1, by simpa [init] using h2⟩

/-! ## Violations -/

/-- Objects that take everything. -/
def open_ : Env := ⟨fun _ => true, fun _ _ => true⟩

/-- After `restore_stdout` the messages of the Python code still go to the file. -/
theorem python_not_restored : ∃ s, run open_ init ([Act.redirect 7, .restore, .print ['a'], .engine ['b']].flatMap Act.events) = .ok s ∧
    s.log (.file 7) = ['a'] ∧ s.log .std = ['b'] ∧ expected open_ (.file 7) .std [Act.redirect 7, .restore, .print ['a'], .engine ['b']] = [] ∧
    expected open_ .std .std [Act.redirect 7, .restore, .print ['a'], .engine ['b']] = ['a', 'b'] :=
  ⟨_, rfl, rfl, rfl, rfl, rfl⟩

/-- Two threads in `refine_step` with redirected output: the second one writes into the buffer of the first one's helper or without the lock. -/
theorem two_threads : run open_ init [.redirect 7, .start 1, .start 2, .out 2 ['a'], .stop 2, .out 1 ['b'], .stop 1] = .ub := rfl

/-- Redirection in another thread during `refine_step`: its messages are written to the file without the lock. -/
theorem redirect_during : run open_ init [.start 1, .redirect 7, .out 1 ['a'], .stop 1] = .ub := rfl

/-- `restore_stdout` in another thread during `refine_step`: the messages before it are lost. -/
theorem restore_during : ∃ s, run open_ init [.redirect 7, .start 1, .out 1 ['a'], .restore, .out 1 ['b'], .stop 1] = .ok s ∧
    s.log (.file 7) = [] ∧ s.log .std = ['b'] := ⟨_, rfl, rfl, rfl⟩

/-- An error raised by the method `write` is ignored and stays pending, so that the call returns a value with an error set, which Python
reports as `SystemError`; the text is lost. -/
theorem write_error : ∃ s, run ⟨fun _ => true, fun _ _ => false⟩ init [.redirect 7, .engine ['a']] = .ok s ∧ s.pending = true ∧
    s.log (.file 7) = [] ∧ s.log .std = [] := ⟨_, rfl, rfl, rfl, rfl⟩

/-! ## Example -/

example : ∃ s, run open_ init ([Act.engine ['a'], .redirect 7, .print ['b'], .refine [['c'], ['d']], .redirect 8, .engine ['e'], .restore,
    .refine [['f']], .redirect 7, .print ['g']].flatMap Act.events) = .ok s ∧ s.log (.file 7) = ['b', 'c', 'd', 'g'] ∧ s.log (.file 8) = ['e'] ∧
    s.log .std = ['a', 'f'] ∧ s.refs 7 = 1 ∧ s.refs 8 = 0 := by
  obtain ⟨s, h1, h2, h3, -⟩ := C61_text_partial open_ (fun _ _ => rfl) [Act.engine ['a'], .redirect 7, .print ['b'], .refine [['c'], ['d']],
    .redirect 8, .engine ['e'], .restore, .refine [['f']], .redirect 7, .print ['g']] (by simp [Quiet, open_])
  exact ⟨s, h1, h2 _, h2 _, h2 _, h3 7, h3 8⟩

example : ∃ s, run open_ init [.start 1, .out 1 ['a'], .start 2, .out 2 ['b'], .out 1 ['c'], .stop 1, .engine ['d'], .stop 2] = .ok s ∧
    s.log .std = ['a', 'b', 'c', 'd'] := by
  obtain ⟨s, h1, h2⟩ := C61_threads_partial open_ [.start 1, .out 1 ['a'], .start 2, .out 2 ['b'], .out 1 ['c'], .stop 1, .engine ['d'], .stop 2]
    (by simp [NoRedirect])
  exact ⟨s, h1, h2⟩

end Pdffit.C61
