import Verif.Main

/-!
# C27: nothing is written unless the whole generation succeeds; C48: how invalid JSON is reported
-/

namespace Mapry.Props

open Mapry.Main Mapry.LangValidate

/-! ## Specification -/

/-- The command line knows three languages. -/
inductive Language where
  | cpp | go | py
  deriving DecidableEq, Repr

def Language.command : Language → Str
  | .cpp => c!"cpp"
  | .go => c!"go"
  | .py => c!"py"

/-- The documented files, in the order in which they are written -/
def Language.documented : Language → List Str
  | .cpp => [c!"types.h", c!"parse.h", c!"parse.cpp", c!"jsoncpp.h", c!"jsoncpp.cpp"]
  | .go => [c!"types.go", c!"parse.go", c!"from_jsonable.go", c!"from_jsonable_test.go", c!"to_jsonable.go",
      c!"to_jsonable_test.go"]
  | .py => [c!"__init__.py", c!"parse.py", c!"fromjsonable.py", c!"tojsonable.py"]

/-- The validation of the language -/
def Language.validation : Language → Graph → Except Exc (List SErr)
  | .cpp => validateSchema LangValidate.cpp
  | .go => goValidateSchema
  | .py => validateSchema LangValidate.py

/-- The settings of the language are in the schema. -/
def Language.configured : Language → Schema → Bool
  | .cpp, s => s.cpp
  | .go, s => s.go
  | .py, s => s.py

/-- The generation can succeed: the schema is valid, the settings are there, and every generator returns. -/
structure Ready (G : Generators) (lang : Language) (s : Schema) (code : Str → Str) : Prop where
  valid : lang.validation s.graph = .ok []
  configured : lang.configured s = true
  generated : ∀ name ∈ lang.documented, G s.graph name = .ok (code name)

/-- There is an output directory or one can be made. -/
def Directory (io : Io) (w : World) : Prop := w.outdir = .dir ∨ (w.outdir = .missing ∧ io.mkdir = true)

/-! ## Lemmas -/

/-- The job of the language -/
def Language.job (lang : Language) (G : Generators) (s : Schema) : Job :=
  match lang with
  | .cpp => jobCpp G s
  | .go => jobGo G s
  | .py => jobPy G s

theorem job_errors (lang : Language) (G : Generators) (s : Schema) :
    (lang.job G s).errors = lang.validation s.graph := by cases lang <;> rfl
theorem job_settings (lang : Language) (G : Generators) (s : Schema) :
    (lang.job G s).settings = lang.configured s := by cases lang <;> rfl
theorem job_generators (lang : Language) (G : Generators) (s : Schema) :
    (lang.job G s).generators = lang.documented.map fun name => (name, G s.graph name) := by cases lang <;> rfl
theorem documented_nodup (lang : Language) : lang.documented.Nodup := by cases lang <;> decide

theorem run_eq (io : Io) (G : Generators) (lang : Language) (s : Schema) (w : World) :
    Main.run io G lang.command .file (.ok s) w =
      match makeDir io w with
      | (.error x, w) => (.error x, w)
      | (.ok _, w) => generate io (lang.job G s) w := by
  cases lang <;> rfl

theorem makeDir_ok {io : Io} {w : World} (h : Directory io w) : makeDir io w = (.ok (), { w with outdir := .dir }) := by
  obtain ⟨outdir, files, out, err⟩ := w
  rcases h with h | ⟨h, hm⟩
  · dsimp only at h
    subst h
    rfl
  · dsimp only at h
    subst h
    simp [makeDir, hm]

theorem makeDir_fails {io : Io} {w : World} (h : ¬ Directory io w) : makeDir io w = (.error .osError, w) := by
  obtain ⟨outdir, files, out, err⟩ := w
  unfold Directory at h
  cases outdir with
  | dir => exact absurd (.inl rfl) h
  | file => rfl
  | missing =>
    cases hm : io.mkdir with
    | true => exact absurd (.inr ⟨rfl, hm⟩) h
    | false => simp [makeDir, hm]

theorem callAll_ok (gens : List (Str × Except Exc Str)) (codes : List (Str × Str)) :
    callAll gens = .ok codes ↔ gens = codes.map fun p => (p.1, .ok p.2) := by
  induction gens generalizing codes with
  | nil => cases codes <;> simp [callAll]
  | cons g gens ih =>
    obtain ⟨name, code⟩ := g
    cases code with
    | error x => cases codes <;> simp [callAll, bind, Except.bind]
    | ok code =>
      simp only [callAll, bind, Except.bind]
      cases hc : callAll gens with
      | error x =>
        simp only [reduceCtorEq, false_iff]
        intro h
        cases codes with
        | nil => simp at h
        | cons c codes =>
          simp only [List.map_cons, List.cons.injEq] at h
          have := (ih codes).2 h.2
          rw [hc] at this
          simp at this
      | ok rest =>
        simp only [pure, Except.pure, Except.ok.injEq]
        have hr := (ih rest).1 hc
        constructor
        · rintro rfl
          simp [hr]
        · intro h
          cases codes with
          | nil => simp at h
          | cons c codes =>
            obtain ⟨n', c'⟩ := c
            simp only [List.map_cons, List.cons.injEq, Prod.mk.injEq, Except.ok.injEq] at h
            have := (ih codes).2 h.2
            rw [hc] at this
            simp only [Except.ok.injEq] at this
            rw [h.1.1, h.1.2, this]

/-- The generators return iff each one does. -/
theorem callAll_documented (G : Generators) (g : Graph) (names : List Str) (codes : List (Str × Str)) :
    callAll (names.map fun name => (name, G g name)) = .ok codes ↔
      ∃ code : Str → Str, (∀ name ∈ names, G g name = .ok (code name)) ∧
        codes = names.map fun name => (name, code name) := by
  rw [callAll_ok]
  constructor
  · intro h
    have hlen : names.length = codes.length := by simpa using congrArg List.length h
    refine ⟨fun name => (G g name).toOption.getD [], ?_, ?_⟩
    · intro name hn
      obtain ⟨i, hi, rfl⟩ := List.getElem_of_mem hn
      have := congrArg (·[i]?) h
      simp only [List.getElem?_map, List.getElem?_eq_getElem hi, List.getElem?_eq_getElem (hlen ▸ hi),
        Option.map_some, Option.some.injEq, Prod.mk.injEq] at this
      simp [this.2, Except.toOption]
    · apply List.ext_getElem
      · simp [hlen]
      · intro i h1 h2
        have hi : i < names.length := by simpa using h2
        have := congrArg (·[i]?) h
        simp only [List.getElem?_map, List.getElem?_eq_getElem hi, List.getElem?_eq_getElem h1,
          Option.map_some, Option.some.injEq, Prod.mk.injEq] at this
        rw [List.getElem_map]
        refine Prod.ext this.1.symm ?_
        show codes[i].2 = (G g names[i]).toOption.getD []
        rw [this.2]
        rfl
  · rintro ⟨code, hc, rfl⟩
    rw [List.map_map]
    apply List.map_congr_left
    intro name hn
    simp [hc name hn]

/-- Write some files. -/
def setAll (code : Str → Str) (names : List Str) (w : World) : World :=
  names.foldl (fun w name => setFile name (code name) w) w

theorem setAll_files (code : Str → Str) (names : List Str) (w : World) (n : Str) :
    (setAll code names w).files n = if n ∈ names then some (code n) else w.files n := by
  induction names generalizing w with
  | nil => simp [setAll]
  | cons name names ih =>
    show (setAll code names (setFile name (code name) w)).files n = _
    rw [ih]
    by_cases hn : n ∈ names
    · simp [hn]
    · by_cases he : n = name
      · subst he; simp [setFile, hn]
      · simp [hn, he, setFile]

theorem writeFiles_prefix (io : Io) (code : Str → Str) (pre rest : List Str) (k : Nat) (w : World)
    (h : ∀ i, i < pre.length → io.write (k + i) = .done) :
    writeFiles io k ((pre ++ rest).map fun name => (name, code name)) w =
      writeFiles io (k + pre.length) (rest.map fun name => (name, code name)) (setAll code pre w) := by
  induction pre generalizing k w with
  | nil => rfl
  | cons name pre ih =>
    have h0 := h 0 (by simp)
    simp only [Nat.add_zero] at h0
    simp only [List.cons_append, List.map_cons, writeFiles, h0]
    rw [ih (k + 1) _ fun i hi => by
      have := h (i + 1) (by simpa using hi)
      rwa [← Nat.add_assoc, Nat.add_right_comm] at this]
    rw [List.length_cons, Nat.add_assoc, Nat.add_comm 1 pre.length]
    rfl

/-- The generation reaches the writing iff it is ready. -/
theorem generate_ready (io : Io) (G : Generators) (lang : Language) (s : Schema) (w : World)
    (hd : w.outdir = .dir) (code : Str → Str) (h : Ready G lang s code) :
    generate io (lang.job G s) w =
      match writeFiles io 0 (lang.documented.map fun name => (name, code name)) w with
      | (.error x, w) => (.error x, w)
      | (.ok _, w) => (.ok 0, printDone w) := by
  have hc : callAll (lang.job G s).generators = .ok (lang.documented.map fun name => (name, code name)) := by
    rw [job_generators, callAll_documented]
    exact ⟨code, h.generated, rfl⟩
  have hm : (if (lang.job G s).mkdir then makeDir io w else (.ok (), w)) = (.ok (), w) := by
    split
    · unfold makeDir; rw [hd]
    · rfl
  unfold generate
  rw [hd, if_neg (by decide), job_errors, h.valid, job_settings, h.configured]
  simp only [Bool.not_true, Bool.false_eq_true, if_false, hc, hm]
  rfl

theorem generate_not_ready (io : Io) (G : Generators) (lang : Language) (s : Schema) (w : World)
    (h : ¬ ∃ code, Ready G lang s code) :
    (generate io (lang.job G s) w).2.files = w.files ∧
      ((generate io (lang.job G s) w).1 = .ok 1 ∨ ∃ x, (generate io (lang.job G s) w).1 = .error x) := by
  unfold generate
  split
  · exact ⟨rfl, .inr ⟨_, rfl⟩⟩
  · rw [job_errors, job_settings]
    split
    · exact ⟨rfl, .inr ⟨_, rfl⟩⟩
    · exact ⟨rfl, .inl rfl⟩
    · next hv =>
      split
      · exact ⟨rfl, .inl rfl⟩
      · next hs =>
        split
        · exact ⟨rfl, .inr ⟨_, rfl⟩⟩
        · next codes hc =>
          rw [job_generators, callAll_documented] at hc
          obtain ⟨code, hc, _⟩ := hc
          exact absurd ⟨code, hv, by simpa using hs, hc⟩ h

/-! ## C27 -/

section

variable (io : Io) (G : Generators) (lang : Language) (s : Schema) (w : World)

/-- **C27.** If the schema is not valid for the language, or its settings are missing, or a generator raises,
then no file is created or changed, and the exit code is 1 or the exception propagates. -/
theorem C27_nothing_written (h : ¬ ∃ code, Ready G lang s code) :
    (Main.run io G lang.command .file (.ok s) w).2.files = w.files ∧
      ((Main.run io G lang.command .file (.ok s) w).1 = .ok 1 ∨
        ∃ x, (Main.run io G lang.command .file (.ok s) w).1 = .error x) := by
  rw [run_eq]
  by_cases hd : Directory io w
  · rw [makeDir_ok hd]
    exact generate_not_ready io G lang s _ h
  · rw [makeDir_fails hd]
    exact ⟨rfl, .inr ⟨_, rfl⟩⟩

/-- **C27.** Validation errors and missing settings lead to the exit code 1. -/
theorem C27_exit_one (hd : Directory io w)
    (h : (∃ e es, lang.validation s.graph = .ok (e :: es)) ∨
      (lang.validation s.graph = .ok [] ∧ lang.configured s = false)) :
    (Main.run io G lang.command .file (.ok s) w).1 = .ok 1 := by
  rw [run_eq, makeDir_ok hd]
  unfold generate
  rw [job_errors, job_settings]
  simp only [reduceCtorEq, if_false]
  rcases h with ⟨e, es, h⟩ | ⟨h, hs⟩
  · rw [h]
  · rw [h, hs]
    rfl

/-- **C27.** If all is well, then exactly the documented files are written with the generated content and
the exit code is 0. -/
theorem C27_written (hd : Directory io w) (code : Str → Str) (h : Ready G lang s code)
    (hio : ∀ k, io.write k = .done) :
    (Main.run io G lang.command .file (.ok s) w).1 = .ok 0 ∧
      ∀ name, (Main.run io G lang.command .file (.ok s) w).2.files name =
        if name ∈ lang.documented then some (code name) else w.files name := by
  rw [run_eq, makeDir_ok hd]
  dsimp only
  rw [generate_ready io G lang s _ rfl code h]
  have := writeFiles_prefix io code lang.documented [] 0 { w with outdir := .dir } fun i _ => hio _
  rw [List.append_nil] at this
  rw [this]
  refine ⟨rfl, fun name => ?_⟩
  exact setAll_files code lang.documented _ name

/-- **C27.** If the writing stops after `k` files, then exactly the first `k` files carry the new content, the
file which was being written is as before or holds a beginning of the new content, all the others are as
before, and the exception propagates. -/
theorem C27_stopped (hd : Directory io w) (code : Str → Str) (h : Ready G lang s code)
    (pre rest : List Str) (file : Str) (hdoc : lang.documented = pre ++ file :: rest)
    (hdone : ∀ i, i < pre.length → io.write i = .done) (hstop : io.write pre.length ≠ .done) :
    (Main.run io G lang.command .file (.ok s) w).1 = .error .osError ∧
      (∀ name ∈ pre, (Main.run io G lang.command .file (.ok s) w).2.files name = some (code name)) ∧
      (∀ name, name ∉ pre → name ≠ file →
        (Main.run io G lang.command .file (.ok s) w).2.files name = w.files name) ∧
      ((Main.run io G lang.command .file (.ok s) w).2.files file = w.files file ∨
        ∃ n, (Main.run io G lang.command .file (.ok s) w).2.files file = some ((code file).take n)) := by
  have hnd := documented_nodup lang
  rw [hdoc] at hnd
  have hfile : file ∉ pre := fun hf =>
    (List.nodup_append.1 hnd).2.2 file hf file (List.mem_cons_self ..) rfl
  rw [run_eq, makeDir_ok hd]
  dsimp only
  rw [generate_ready io G lang s _ rfl code h, hdoc,
    writeFiles_prefix io code pre (file :: rest) 0 _ fun i hi => by rw [Nat.zero_add]; exact hdone i hi]
  rw [Nat.zero_add]
  simp only [List.map_cons, writeFiles]
  cases hw : io.write pre.length with
  | done => exact absurd hw hstop
  | refused =>
    refine ⟨rfl, fun name hn => ?_, fun name hn _ => ?_, .inl ?_⟩
    · exact (setAll_files ..).trans (if_pos hn)
    · exact (setAll_files ..).trans (if_neg hn)
    · exact (setAll_files ..).trans (if_neg hfile)
  | torn n =>
    refine ⟨rfl, fun name hn => ?_, fun name hn hne => ?_, .inr ⟨n, ?_⟩⟩
    · refine (if_neg fun he => ?_ : _ = (setAll code pre _).files name).trans ((setAll_files ..).trans (if_pos hn))
      subst he
      exact hfile hn
    · exact (if_neg hne : _ = (setAll code pre _).files name).trans ((setAll_files ..).trans (if_neg hn))
    · exact if_pos rfl

/-- **C27.** The exit code is 0 iff every documented file was generated and written. -/
theorem C27_exit_zero_iff :
    (Main.run io G lang.command .file (.ok s) w).1 = .ok 0 ↔
      Directory io w ∧ (∃ code, Ready G lang s code) ∧ ∀ i, i < lang.documented.length → io.write i = .done := by
  rw [run_eq]
  by_cases hd : Directory io w
  · rw [makeDir_ok hd]
    dsimp only
    by_cases hr : ∃ code, Ready G lang s code
    · obtain ⟨code, h⟩ := hr
      rw [generate_ready io G lang s _ rfl code h]
      by_cases hall : ∀ i, i < lang.documented.length → io.write i = .done
      · have := writeFiles_prefix io code lang.documented [] 0 { w with outdir := .dir } fun i hi => by
          rw [Nat.zero_add]; exact hall i hi
        rw [List.append_nil] at this
        rw [this]
        exact ⟨fun _ => ⟨hd, ⟨code, h⟩, hall⟩, fun _ => rfl⟩
      · refine ⟨fun h0 => absurd ?_ hall, fun h1 => absurd h1.2.2 hall⟩
        intro i
        induction i using Nat.strongRecOn with
        | ind i ih =>
          intro hi
          have hsplit : lang.documented = lang.documented.take i ++ lang.documented.drop i :=
            (List.take_append_drop i _).symm
          rw [List.drop_eq_getElem_cons hi] at hsplit
          have hlen : (lang.documented.take i).length = i := by rw [List.length_take]; omega
          rw [hsplit, writeFiles_prefix io code _ _ 0 _ fun j hj => by
            rw [Nat.zero_add]; exact ih j (by omega) (by omega)] at h0
          rw [Nat.zero_add, hlen] at h0
          simp only [List.map_cons, writeFiles] at h0
          cases hw : io.write i with
          | done => rfl
          | refused => rw [hw] at h0; simp at h0
          | torn n => rw [hw] at h0; simp at h0
    · have := generate_not_ready io G lang s { w with outdir := .dir } hr
      refine ⟨fun h0 => ?_, fun h1 => absurd h1.2.1 hr⟩
      rcases this.2 with h1 | ⟨x, h1⟩
      · rw [h1] at h0; simp at h0
      · rw [h1] at h0; simp at h0
  · rw [makeDir_fails hd]
    exact ⟨fun h => (nomatch h), fun h => absurd h.1 hd⟩

/-- **C27.** Without a schema nothing is written either, not even the output directory is made. -/
theorem C27_no_schema (command : Str) (at_ : Node) (parsed : Except Exc Schema)
    (h : at_ ≠ .file ∨ ∃ x, parsed = .error x) :
    (Main.run io G command at_ parsed w).2.files = w.files ∧
      (Main.run io G command at_ parsed w).2.outdir = w.outdir ∧
      (at_ ≠ .file → (Main.run io G command at_ parsed w).1 = .ok 1) ∧
      (∀ x, at_ = .file → parsed = .error x → (Main.run io G command at_ parsed w).1 = .error x) := by
  cases at_ with
  | missing => exact ⟨rfl, rfl, fun _ => rfl, fun _ h => nomatch h⟩
  | dir => exact ⟨rfl, rfl, fun _ => rfl, fun _ h => nomatch h⟩
  | file =>
    rcases h with h | ⟨x, rfl⟩
    · exact absurd rfl h
    · refine ⟨rfl, rfl, fun h => absurd rfl h, ?_⟩
      rintro x _ hx
      cases hx
      rfl

end

/-! ### Examples -/

/-- A generator for the examples -/
def demoGen : Generators := fun _ name => .ok (c!"code of " ++ name)
def demoWorld : World := ⟨.missing, fun n => if n = c!"parse.py" then some c!"old" else none, [], []⟩
def demoSchema : Schema := { graph := { name := c!"Town" }, py := true }

example : Ready demoGen .py demoSchema (c!"code of " ++ ·) := ⟨by decide, rfl, fun _ _ => rfl⟩
/-- The writing stops in the second file. -/
example :
    let w' := Main.run ⟨true, fun k => if k = 1 then .torn 3 else .done⟩ demoGen c!"py" .file (.ok demoSchema) demoWorld
    w'.1 = .error .osError ∧ w'.2.files c!"__init__.py" = some c!"code of __init__.py" ∧
      w'.2.files c!"parse.py" = some c!"cod" ∧ w'.2.files c!"tojsonable.py" = none := by decide
/-- A generator raises for the last file. -/
example : ¬ ∃ code, Ready (fun _ name => if name = c!"tojsonable.py" then .error .keyError else .ok []) .py
    demoSchema code := by
  rintro ⟨code, h⟩
  have := h.generated c!"tojsonable.py" (by decide)
  simp at this

/-! ## C48 -/

/-- The line of the text at a position: what is before it, the line, and what is after it. -/
structure LineAt (text : Str) (pos : Nat) (pre line post : Str) : Prop where
  split : text = pre ++ line ++ post
  single : '\n' ∉ line
  starts : pre = [] ∨ ∃ p, pre = p ++ ['\n']
  ends : post = [] ∨ ∃ q, post = '\n' :: q
  within : pre.length ≤ pos ∧ pos ≤ pre.length + line.length

/-- The full property: an error in the encoding is reported as `RuntimeError`. -/
def C48Full : Prop := ∀ (path text : Str) (pos : Nat) (msg : Str), pos ≤ text.length →
  ∃ m, decodeError path text pos msg = .runtimeError m

/-- It is violated: an empty file raises `IndexError`, … -/
theorem C48_violated : ¬ C48Full := by
  intro h
  obtain ⟨m, hm⟩ := h c!"schema.json" [] 0 [] (by decide)
  have : decodeError c!"schema.json" [] 0 [] = .indexError := rfl
  rw [this] at hm
  cases hm

/-- … and so does every file which breaks off after a line feed. -/
theorem C48_violated_at_end (path text msg : Str) (h : ∀ c ∈ text, isLineBreak c = true → c = '\n') :
    decodeError path (text ++ ['\n']) (text.length + 1) msg = .indexError := by
  have hlen : (splitLines (text ++ ['\n'])).length = text.count '\n' + 1 := by
    induction text with
    | nil => rfl
    | cons c text ih =>
      have ih := ih fun d hd => h d (List.mem_cons_of_mem _ hd)
      rw [List.cons_append, splitLines]
      by_cases hb : isLineBreak c = true
      · rw [if_pos hb, h c (List.mem_cons_self ..) hb, List.length_cons, ih, List.count_cons_self]
      · rw [if_neg hb, List.count_cons_of_ne (by intro he; subst he; exact hb (by decide)), ← ih]
        split
        · next he => rw [he] at ih; simp at ih
        · next l ls he => rw [he]; rfl
  unfold decodeError lineNo
  rw [List.take_of_length_le (by simp), List.getElem?_eq_none]
  rw [hlen, List.count_append]
  simp

theorem splitLines_head (line post : Str) (h : ∀ c ∈ line, isLineBreak c = false)
    (hp : (post = [] ∧ line ≠ []) ∨ ∃ q, post = '\n' :: q) : (splitLines (line ++ post))[0]? = some line := by
  induction line with
  | nil =>
    rcases hp with ⟨_, h0⟩ | ⟨q, rfl⟩
    · exact absurd rfl h0
    · rfl
  | cons c line ih =>
    rw [List.cons_append, splitLines, if_neg (by rw [h c (List.mem_cons_self ..)]; simp)]
    by_cases hl : line = []
    · subst hl
      rcases hp with ⟨rfl, _⟩ | ⟨q, rfl⟩
      · rfl
      · simp [splitLines, isLineBreak]
    · have := ih (fun d hd => h d (List.mem_cons_of_mem _ hd)) (by
        rcases hp with ⟨h1, _⟩ | h1
        · exact .inl ⟨h1, hl⟩
        · exact .inr h1)
      split
      · next he => rw [he] at this; simp at this
      · next l ls he =>
        rw [he] at this
        simp only [List.getElem?_cons_zero, Option.some.injEq] at this ⊢
        rw [this]

theorem splitLines_index (pre rest : Str) (h : ∀ c ∈ pre, isLineBreak c = true → c = '\n')
    (hp : pre = [] ∨ ∃ p, pre = p ++ ['\n']) :
    (splitLines (pre ++ rest))[pre.count '\n']? = (splitLines rest)[0]? := by
  induction pre with
  | nil => rfl
  | cons c pre ih =>
    have htail : pre = [] ∨ ∃ p, pre = p ++ ['\n'] := by
      rcases hp with hp | ⟨p, hp⟩
      · simp at hp
      · cases p with
        | nil => simp at hp; exact .inl hp.2
        | cons d p => simp only [List.cons_append, List.cons.injEq] at hp; exact .inr ⟨p, hp.2⟩
    have ih := ih (fun d hd => h d (List.mem_cons_of_mem _ hd)) htail
    rw [List.cons_append, splitLines]
    by_cases hb : isLineBreak c = true
    · rw [if_pos hb, h c (List.mem_cons_self ..) hb, List.count_cons_self, List.getElem?_cons_succ, ih]
    · have hc : c ≠ '\n' := by intro he; subst he; exact hb (by decide)
      rw [if_neg hb, List.count_cons_of_ne hc]
      have hpos : ∃ k, pre.count '\n' = k + 1 := by
        rcases htail with rfl | ⟨p, rfl⟩
        · rcases hp with hp | ⟨p, hp⟩
          · simp at hp
          · cases p with
            | nil => simp at hp; exact absurd hp hc
            | cons d p => simp at hp
        · exact ⟨p.count '\n', by simp [List.count_append]⟩
      obtain ⟨k, hk⟩ := hpos
      rw [hk] at ih ⊢
      split
      · next he =>
        rw [he] at ih
        simpa using ih
      · next l ls he =>
        rw [he] at ih
        simpa using ih

/-- **C48 (partial).** The report shows the line of the error with a caret below the position, if the line
feed is the only line boundary in the text and the error is not behind the last line feed. -/
theorem C48_line_shown_partial (path text : Str) (pos : Nat) (msg pre line post : Str)
    (h : ∀ c ∈ text, isLineBreak c = true → c = '\n') (hl : LineAt text pos pre line post)
    (hend : line ≠ [] ∨ post ≠ []) (hshort : line.length ≤ 120) :
    ∃ pad : Str, pad.length = pos - pre.length ∧ (∀ c ∈ pad, c = ' ' ∨ c = '\t') ∧
      decodeError path text pos msg = .runtimeError (c!"Failed to json-decode " ++ path ++ c!":\n" ++ line ++
        c!"\n" ++ (pad ++ ['^']) ++ c!"\n" ++ msg) := by
  obtain ⟨rfl, hs, hstart, he, hw1, hw2⟩ := hl
  have hbr : ∀ c ∈ line, isLineBreak c = false := by
    intro c hc
    cases hb : isLineBreak c with
    | false => rfl
    | true =>
      have := h c (by simp [hc]) hb
      subst this
      exact absurd hc hs
  have htake : (pre ++ line ++ post).take pos = pre ++ line.take (pos - pre.length) := by
    rw [List.append_assoc, List.take_append, List.take_of_length_le hw1, List.take_append,
      show pos - pre.length - line.length = 0 by omega, List.take_zero, List.append_nil]
  have hnone : '\n' ∉ line.take (pos - pre.length) := fun hm => hs (List.mem_of_mem_take hm)
  have hno : lineNo (pre ++ line ++ post) pos - 1 = pre.count '\n' := by
    unfold lineNo
    rw [htake, List.count_append, List.count_eq_zero_of_not_mem hnone]
    omega
  have hcol : colNo (pre ++ line ++ post) pos - 1 = pos - pre.length := by
    unfold colNo
    rw [htake, List.reverse_append]
    have hall : ∀ c ∈ (line.take (pos - pre.length)).reverse, decide (c ≠ '\n') = true := by
      intro c hc
      rw [List.mem_reverse] at hc
      exact decide_eq_true fun e => hnone (e ▸ hc)
    rw [List.takeWhile_append_of_pos hall]
    have h0 : pre.reverse.takeWhile (fun c => decide (c ≠ '\n')) = [] := by
      rcases hstart with rfl | ⟨p, rfl⟩
      · rfl
      · simp
    rw [h0, List.append_nil, List.length_reverse, List.length_take]
    omega
  have hline : (splitLines (pre ++ line ++ post))[lineNo (pre ++ line ++ post) pos - 1]? = some line := by
    rw [hno, List.append_assoc, splitLines_index pre (line ++ post) (fun c hc => h c (by simp [hc])) hstart]
    apply splitLines_head line post hbr
    rcases he with he | he
    · exact .inl ⟨he, hend.resolve_right (fun hp => hp he)⟩
    · exact .inr he
  refine ⟨(line.take (pos - pre.length)).map (fun c => if c = ' ' ∨ c = '\t' then c else ' '), ?_, ?_, ?_⟩
  · rw [List.length_map, List.length_take]
    omega
  · intro c hc
    obtain ⟨d, _, rfl⟩ := List.mem_map.1 hc
    split
    · assumption
    · exact .inl rfl
  · unfold decodeError
    rw [hline]
    simp only [hshort, if_true, cursor, hcol]

/-- A text with a line separator (U+2028) inside of a string, and an error in its second line -/
def separated : Str := c!"[\"" ++ [Char.ofNat 0x2028] ++ c!"\",\n , 3\n]"

/-- Another line boundary in front of the error shifts the line which is shown: the end of the string is taken
for the second line. -/
theorem C48_violated_by_separator :
    LineAt separated 7 (c!"[\"" ++ [Char.ofNat 0x2028] ++ c!"\",\n") c!" , 3" c!"\n]" ∧
    decodeError c!"s" separated 7 c!"m" = .runtimeError c!"Failed to json-decode s:\n\",\n ^\nm" :=
  ⟨⟨rfl, by decide, .inr ⟨c!"[\"" ++ [Char.ofNat 0x2028] ++ c!"\",", rfl⟩, .inr ⟨c!"]", rfl⟩, by decide⟩, by decide⟩

example : LineAt c!"{\n  \"a\": x\n}" 9 c!"{\n" c!"  \"a\": x" c!"\n}" :=
  ⟨rfl, by decide, .inr ⟨c!"{", rfl⟩, .inr ⟨c!"}", rfl⟩, by decide⟩

end Mapry.Props
