import Verif.Model.Start
import Verif.Props.ServiceFind
import Verif.Props.ExitCode
import Verif.Props.DataIn

/-! C71: what the caller learns when a service cannot be started. -/
namespace Qrexec

/-- Nothing is found for the call, although all the places could be examined. -/
def ServiceAbsent (w : StartWorld) (s : RpcService) : Prop :=
  ∀ p ∈ servicePlaces (pathDirs w.pathList) s, NothingAt true w.fs p

theorem findFile_enough {tcp fs size list name} (h : ∀ p ∈ (pathDirs list).map fun d => d ++ c!"/" ++ name,
    p.length < size ∧ NothingAt tcp fs p) : findFile tcp fs size list name = .absent := by
  unfold findFile
  split_ifs with h1
  · rfl
  generalize pathDirs list = ds at h
  induction ds with
  | nil => rfl
  | cons d ds ih =>
    have hd := h (d ++ c!"/" ++ name) (by simp)
    have ih := ih (fun p hp => h p (by simp at hp ⊢; exact .inr hp))
    unfold findLoop
    have hl : (d ++ c!"/" ++ name).length = d.length + name.length + 1 := by simp; omega
    rw [if_neg (by omega)]
    dsimp only
    rcases hd.2 with hd | ⟨t, hd, ht⟩
    · rw [hd]; exact ih
    · rw [hd]
      dsimp only
      cases tcp with
      | false => simpa using ih
      | true =>
        obtain ⟨t', rfl, hnt⟩ := ht rfl
        rw [if_pos rfl]
        dsimp only
        have : isTcpLink t' = false := by
          by_contra hc
          apply hnt
          simp only [Bool.not_eq_false] at hc
          unfold isTcpLink at hc
          simp only [Bool.or_eq_true, beq_iff_eq] at hc
          rcases hc with hc | hc
          · right; unfold startsWith at hc; exact List.isPrefixOf_iff_prefix.1 hc
          · left; exact hc
        rw [this]
        simpa using ih

/-- The status of a call: 127 only if there is no such service; and then always, if the paths of the places are not too
long to be examined. -/
theorem findService_notFound (w : StartWorld) (sockets sendDesc : Bool) (command : Str) (s : RpcService) :
    (findService w.fs w.bufSize w.pathList sockets sendDesc w.connects command s = .notFound → ServiceAbsent w s) ∧
    (ServiceAbsent w s → (∀ p ∈ servicePlaces (pathDirs w.pathList) s, p.length < w.bufSize) →
      findService w.fs w.bufSize w.pathList sockets sendDesc w.connects command s = .notFound) := by
  refine ⟨fun h => ?_, fun h hs => ?_⟩
  · have := C65_service w.fs w.bufSize w.pathList sockets sendDesc w.connects command s
    rw [h] at this
    exact this
  · have hf : findDescOrName true w.fs w.bufSize w.pathList s = .absent := by
      have h1 : ∀ n ∈ [s.descriptor, s.name], findFile true w.fs w.bufSize w.pathList n = .absent := by
        intro n hn
        by_cases hl : n.length ≤ 255
        · refine findFile_enough ?_
          intro p hp
          have hm : p ∈ servicePlaces (pathDirs w.pathList) s := by
            unfold servicePlaces
            exact List.mem_flatMap.2 ⟨n, List.mem_filter.2 ⟨hn, by simpa using hl⟩, hp⟩
          exact ⟨hs p hm, h p hm⟩
        · unfold findFile; rw [if_pos (by omega)]
      unfold findDescOrName
      rw [h1 s.descriptor (by simp)]
      exact h1 s.name (by simp)
    unfold findService
    rw [hf]

/-- The service of a command. -/
def cmdService (cmd : Option VaCmd) : Option RpcService := cmd.bind fun c => c.1.service

/-- **C71.** A request to run a command that cannot be started is answered with the end of both streams and an exit
status, and that is all: 127 if no file for the service exists, 125 in all other cases (a broken command line or
configuration, something unusable in the place of the service, no connection to its socket, no process). Where the places
can be examined, 127 is the answer whenever no file exists. -/
theorem C71_refused (w : StartWorld) (cmd : Option VaCmd) (v : Nat) (ro re : Bool) (msgs : List DMsg) (st : Int)
    (h : agentServe w 0x200 cmd v ro re = .atOnce msgs st) :
    msgs = [(0x191, []), (0x192, []), (0x193, i32le st)] ∧ (st = 127 ∨ st = 125) ∧
    (st = 127 → ∃ s, cmdService cmd = some s ∧ ServiceAbsent w s) ∧
    (∀ s, cmdService cmd = some s → ServiceAbsent w s →
      (∀ p ∈ servicePlaces (pathDirs w.pathList) s, p.length < w.bufSize) → st = 127) := by
  unfold agentServe at h
  rw [if_neg (by decide), if_pos rfl] at h
  cases cmd with
  | none =>
    dsimp only at h
    cases h
    exact ⟨rfl, .inr rfl, (fun h => by cases h), (fun s h => by cases h)⟩
  | some cc =>
    obtain ⟨c, conf⟩ := cc
    dsimp only at h
    have key : ∀ z, executeParsed w c conf.sendDescriptor = .fails z →
        (z = -1 → ∃ s, c.service = some s ∧ ServiceAbsent w s) ∧
        (∀ s, c.service = some s → ServiceAbsent w s →
          (∀ p ∈ servicePlaces (pathDirs w.pathList) s, p.length < w.bufSize) → z = -1) := by
      intro z hz
      unfold executeParsed at hz
      cases hsv : c.service with
      | none =>
        rw [hsv] at hz
        dsimp only [doForkExec] at hz
        refine ⟨fun h => ?_, fun s h => by cases h⟩
        split_ifs at hz
        simp at hz; omega
      | some s =>
        rw [hsv] at hz
        dsimp only at hz
        have hnf := findService_notFound w true conf.sendDescriptor c.command s
        refine ⟨fun h => ?_, fun s' h ha hl => ?_⟩
        · refine ⟨s, rfl, hnf.1 ?_⟩
          cases hr : findService w.fs w.bufSize w.pathList true conf.sendDescriptor w.connects c.command s with
          | notFound => rfl
          | failed => rw [hr] at hz; simp at hz; omega
          | unix p f => rw [hr] at hz; simp at hz
          | tcp a b f => rw [hr] at hz; simp at hz
          | exec p =>
            rw [hr] at hz
            dsimp only [doForkExec] at hz
            split_ifs at hz
            simp at hz; omega
        · cases h
          rw [hnf.2 ha hl] at hz
          simp at hz; omega
    cases he : executeParsed w c conf.sendDescriptor with
    | process => rw [he] at h; cases h
    | socket f => rw [he] at h; cases h
    | fails z =>
      rw [he] at h
      dsimp only at h
      cases h
      obtain ⟨k1, k2⟩ := key z he
      refine ⟨rfl, ?_, fun h => ?_, fun s hs ha hl => ?_⟩
      · split_ifs <;> simp
      · by_cases hz : z = -1
        · exact k1 hz
        · rw [if_neg hz] at h; exact absurd h (by decide)
      · rw [if_pos (k2 s hs ha hl)]

/-- **C71, without a connection to the process.** A request to only start a command is answered with one message, an exit
status: 0 if it was started, 127 if no file for the service exists, else 125. -/
theorem C71_just_exec (w : StartWorld) (cmd : Option VaCmd) (v : Nat) (ro re : Bool) :
    ∃ st : Int, agentServe w 0x201 cmd v ro re = .atOnce [(0x193, i32le st)] 0 ∧ (st = 0 ∨ st = 127 ∨ st = 125) ∧
    (cmd = none → st = 125) ∧ (st = 127 → ∃ s, cmdService cmd = some s ∧ ServiceAbsent w s) ∧
    (∀ s, cmdService cmd = some s → ServiceAbsent w s →
      (∀ p ∈ servicePlaces (pathDirs w.pathList) s, p.length < w.bufSize) → st = 127) ∧
    (st = 0 → (∀ s, cmdService cmd = some s → ¬ ServiceAbsent w s ∨
      ∃ p ∈ servicePlaces (pathDirs w.pathList) s, w.bufSize ≤ p.length)) := by
  refine ⟨justExec w cmd, by unfold agentServe; rw [if_pos rfl]; rfl, ?_⟩
  have main : (justExec w cmd = 0 ∨ justExec w cmd = 127 ∨ justExec w cmd = 125) ∧
      (cmd = none → justExec w cmd = 125) ∧
      (justExec w cmd = 127 → ∃ s, cmdService cmd = some s ∧ ServiceAbsent w s) ∧
      (∀ s, cmdService cmd = some s → ServiceAbsent w s →
        (∀ p ∈ servicePlaces (pathDirs w.pathList) s, p.length < w.bufSize) → justExec w cmd = 127) := by
    cases cmd with
    | none => exact ⟨.inr (.inr rfl), fun _ => rfl, (fun h => by cases h), (fun s h => by cases h)⟩
    | some cc =>
      obtain ⟨c, conf⟩ := cc
      unfold justExec
      dsimp only
      cases hsv : c.service with
      | none =>
        dsimp only
        refine ⟨by split_ifs <;> simp, (fun h => by cases h), fun h => ?_, fun s h => ?_⟩
        · split_ifs at h <;> cases h
        · simp [cmdService, hsv] at h
      | some s =>
        dsimp only
        have hnf := findService_notFound w true conf.sendDescriptor c.command s
        have hcs : cmdService (some (c, conf)) = some s := hsv
        cases hr : findService w.fs w.bufSize w.pathList true conf.sendDescriptor w.connects c.command s with
        | notFound =>
          exact ⟨.inr (.inl rfl), (fun h => by cases h), fun _ => ⟨s, hcs, hnf.1 hr⟩, fun _ _ _ _ => rfl⟩
        | failed =>
          refine ⟨.inr (.inr rfl), (fun h => by cases h), (fun h => by cases h), fun s' h ha hl => ?_⟩
          rw [hcs] at h; cases h
          rw [hnf.2 ha hl] at hr; cases hr
        | unix p f =>
          dsimp only
          refine ⟨by split_ifs <;> simp, (fun h => by cases h), (fun h => by split_ifs at h <;> cases h), fun s' h ha hl => ?_⟩
          rw [hcs] at h; cases h
          rw [hnf.2 ha hl] at hr; cases hr
        | tcp a b f =>
          dsimp only
          refine ⟨by split_ifs <;> simp, (fun h => by cases h), (fun h => by split_ifs at h <;> cases h), fun s' h ha hl => ?_⟩
          rw [hcs] at h; cases h
          rw [hnf.2 ha hl] at hr; cases hr
        | exec p =>
          dsimp only
          refine ⟨by split_ifs <;> simp, (fun h => by cases h), (fun h => by split_ifs at h <;> cases h), fun s' h ha hl => ?_⟩
          rw [hcs] at h; cases h
          rw [hnf.2 ha hl] at hr; cases hr
  refine ⟨main.1, main.2.1, main.2.2.1, main.2.2.2, fun h0 s hs => ?_⟩
  by_cases ha : ServiceAbsent w s
  · right
    by_contra hl
    have := main.2.2.2 s hs ha (fun p hp => by
      by_contra hc
      exact hl ⟨p, hp, by omega⟩)
    rw [h0] at this
    cases this
  · exact .inl ha

/-- **C71, in dom0.** The same for a service in dom0, if the command line can be parsed: the ends of the streams, then the
exit status. -/
theorem C71_dom0_partial (w : StartWorld) (load : RpcService → Option SvcConf) (c : RpcCmd) (v : Nat) (msgs : List DMsg) (st : Int)
    (h : dom0Serve w load (some c) v = .atOnce msgs st) :
    msgs = [(0x192, []), (0x191, []), (0x193, i32le st)] ∧ (st = 127 ∨ st = 125) ∧
    (st = 127 → ∃ s, c.service = some s ∧ ServiceAbsent w s) := by
  unfold dom0Serve at h
  have key : (prepareLocal w load (some c)).1 = .fails (-1) → ∃ s, c.service = some s ∧ ServiceAbsent w s := by
    intro hz
    unfold prepareLocal at hz
    dsimp only at hz
    cases hd : dom0Conf load c with
    | none => rw [hd] at hz; cases hz
    | some conf =>
      rw [hd] at hz
      dsimp only at hz
      unfold executeParsed at hz
      cases hsv : c.service with
      | none => rw [hsv] at hz; dsimp only [doForkExec] at hz; split_ifs at hz; cases hz
      | some s =>
        rw [hsv] at hz
        dsimp only at hz
        refine ⟨s, rfl, (findService_notFound w true conf.sendDescriptor c.command s).1 ?_⟩
        cases hr : findService w.fs w.bufSize w.pathList true conf.sendDescriptor w.connects c.command s with
        | notFound => rfl
        | failed => rw [hr] at hz; cases hz
        | unix p f => rw [hr] at hz; cases hz
        | tcp a b f => rw [hr] at hz; cases hz
        | exec p => rw [hr] at hz; dsimp only [doForkExec] at hz; split_ifs at hz; cases hz
  generalize prepareLocal w load (some c) = r at h key
  obtain ⟨r, conf⟩ := r
  cases r with
  | process => cases h
  | socket f => cases h
  | fails z =>
    dsimp only at h
    rw [if_neg (by simp)] at h
    cases h
    refine ⟨rfl, by split_ifs <;> simp, fun h => ?_⟩
    by_cases hz : z = -1
    · subst hz; exact key rfl
    · rw [if_neg hz] at h; cases h

/-- **C71, finding.** A command for dom0 that cannot be parsed (the name of the service is longer than 255 characters) ends
the process: the caller gets no exit status. -/
theorem C71_dom0_crash (w : StartWorld) (load : RpcService → Option SvcConf) (v : Nat) :
    dom0Serve w load none v = .crash := rfl

/-- **C71, a command that was started.** Executables and shell commands are run with a descriptor for stderr (in a qube), the
options for the ends of the streams have no effect on them; a socket or TCP service begins with the description of
the call unless its configuration says otherwise, and its options are those of its configuration. -/
theorem C71_started (w : StartWorld) (cmd : Option VaCmd) (v : Nat) (ro re : Bool) (c : IoCfg) (socket hasErr : Bool)
    (buf : Str) (h : agentServe w 0x200 cmd v ro re = .io c socket hasErr buf) :
    c.isService = true ∧ c.maxChunk = maxDataChunk v ∧ c.replaceOut = ro ∧ c.replaceErr = re ∧
    ∃ rc conf, cmd = some (rc, conf) ∧
      (socket = false → c.hasPid = true ∧ hasErr = true ∧ buf = [] ∧ c.exitOnStdinEof = false ∧
        c.exitOnStdoutEof = false) ∧
      (socket = true → c.hasPid = false ∧ hasErr = false ∧ rc.service ≠ none ∧
        buf = (if conf.sendDescriptor then rc.command ++ [Char.ofNat 0] else []) ∧
        c.exitOnStdinEof = conf.exitOnClientEof ∧ c.exitOnStdoutEof = conf.exitOnServiceEof) := by
  unfold agentServe at h
  rw [if_neg (by decide), if_pos rfl] at h
  cases cmd with
  | none => cases h
  | some cc =>
    obtain ⟨rc, conf⟩ := cc
    dsimp only at h
    cases he : executeParsed w rc conf.sendDescriptor with
    | fails z => rw [he] at h; cases h
    | process =>
      rw [he] at h
      dsimp only at h
      cases h
      exact ⟨rfl, rfl, rfl, rfl, rc, conf, rfl, fun _ => ⟨rfl, rfl, rfl, rfl, rfl⟩, (fun h => by cases h)⟩
    | socket f =>
      rw [he] at h
      dsimp only at h
      cases h
      refine ⟨rfl, rfl, rfl, rfl, rc, conf, rfl, (fun h => by cases h), fun _ => ⟨rfl, rfl, ?_, ?_, rfl, rfl⟩⟩
      · intro hn
        unfold executeParsed at he
        rw [hn] at he
        dsimp only [doForkExec] at he
        split_ifs at he
      · unfold executeParsed at he
        cases hsv : rc.service with
        | none => rw [hsv] at he; dsimp only [doForkExec] at he; split_ifs at he
        | some s =>
          rw [hsv] at he
          dsimp only at he
          have hs := C65_service w.fs w.bufSize w.pathList true conf.sendDescriptor w.connects rc.command s
          cases hr : findService w.fs w.bufSize w.pathList true conf.sendDescriptor w.connects rc.command s with
          | notFound => rw [hr] at he; cases he
          | failed => rw [hr] at he; cases he
          | unix p g => rw [hr] at he hs; cases he; exact hs.2.2.2
          | tcp a b g => rw [hr] at he hs; cases he; exact hs.2.2.2
          | exec p => rw [hr] at he; dsimp only [doForkExec] at he; split_ifs at he

theorem executeParsed_socket {w : StartWorld} {rc : RpcCmd} {sd : Bool} {f : Str} (he : executeParsed w rc sd = .socket f) :
    rc.service ≠ none ∧ f = if sd then rc.command ++ [Char.ofNat 0] else [] := by
  unfold executeParsed at he
  cases hsv : rc.service with
  | none => rw [hsv] at he; dsimp only [doForkExec] at he; split_ifs at he
  | some s =>
    rw [hsv] at he
    dsimp only at he
    refine ⟨by simp, ?_⟩
    have hs := C65_service w.fs w.bufSize w.pathList true sd w.connects rc.command s
    cases hr : findService w.fs w.bufSize w.pathList true sd w.connects rc.command s with
    | notFound => rw [hr] at he; cases he
    | failed => rw [hr] at he; cases he
    | unix p g => rw [hr] at he hs; cases he; exact hs.2.2.2
    | tcp a b g => rw [hr] at he hs; cases he; exact hs.2.2.2
    | exec p => rw [hr] at he; dsimp only [doForkExec] at he; split_ifs at he

/-- **C71, a command that was started in dom0.** There is no descriptor for stderr; the process is waited for; a socket
or TCP service begins with the description of the call and has the options of its configuration, which is not read if the
command has "nogui:". A service whose configuration cannot be read is not started. -/
theorem C71_dom0_started (w : StartWorld) (load : RpcService → Option SvcConf) (cmd : Option RpcCmd) (v : Nat) (c : IoCfg)
    (socket hasErr : Bool) (buf : Str) (h : dom0Serve w load cmd v = .io c socket hasErr buf) :
    c.isService = true ∧ c.maxChunk = maxDataChunk v ∧ c.replaceOut = false ∧ c.replaceErr = false ∧ hasErr = false ∧
    ∃ rc conf, cmd = some rc ∧ (rc.nogui = true → conf = {}) ∧ (rc.nogui = false → ∀ sv, rc.service = some sv → load sv = some conf) ∧
      (socket = false → c.hasPid = true ∧ buf = [] ∧ c.exitOnStdinEof = false ∧ c.exitOnStdoutEof = false) ∧
      (socket = true → c.hasPid = false ∧ rc.service ≠ none ∧
        buf = (if conf.sendDescriptor then rc.command ++ [Char.ofNat 0] else []) ∧
        c.exitOnStdinEof = conf.exitOnClientEof ∧ c.exitOnStdoutEof = conf.exitOnServiceEof) := by
  unfold dom0Serve at h
  cases cmd with
  | none => cases h
  | some rc =>
    unfold prepareLocal at h
    dsimp only at h
    cases hd : dom0Conf load rc with
    | none => rw [hd] at h; cases h
    | some conf =>
      rw [hd] at h
      dsimp only at h
      have hconf : (rc.nogui = true → conf = {}) ∧ (rc.nogui = false → ∀ sv, rc.service = some sv → load sv = some conf) := by
        unfold dom0Conf at hd
        refine ⟨fun hn => ?_, fun hn sv hs => ?_⟩
        · rw [if_pos hn] at hd; cases hd; rfl
        · rw [if_neg (by simp [hn]), hs] at hd; exact hd
      cases he : executeParsed w rc conf.sendDescriptor with
      | fails z =>
        rw [he] at h
        dsimp only at h
        split_ifs at h
      | process =>
        rw [he] at h
        dsimp only at h
        cases h
        exact ⟨rfl, rfl, rfl, rfl, rfl, rc, conf, rfl, hconf.1, hconf.2, fun _ => ⟨rfl, rfl, rfl, rfl⟩, (fun h => by cases h)⟩
      | socket f =>
        rw [he] at h
        dsimp only at h
        cases h
        obtain ⟨q1, q2⟩ := executeParsed_socket he
        exact ⟨rfl, rfl, rfl, rfl, rfl, rc, conf, rfl, hconf.1, hconf.2, (fun h => by cases h), fun _ => ⟨rfl, q1, q2, rfl, rfl⟩⟩

/-! ## What the caller sees -/

/-- **C71, at the caller.** A caller without a local process receives messages that end with an exit status (and contain no
other), split over time in any way; its connection ends other than by a failing poll. Then it returns this status. -/
theorem C71_client (msgs pre : List DMsg) (st : Nat) (hst : st ≤ 255) (e1 : msgs = pre ++ [(0x193, i32le st)])
    (e2 : ∀ m ∈ pre, m.1 ≠ 0x193)
    (c' : IoCfg) (hc' : c'.isService = false) (hpid' : c'.hasPid = false) (socket' : Bool) (buf' pfx' : Str)
    (ts' : List Tick) (t' : Tick) (s1 s' : IoSt)
    (h1 : ioRun c' ts' (ioStart c' socket' false buf' pfx') = .next s1)
    (h2 : ioTick c' t' s1 = .leave s') (hpoll : t'.poll ≠ .error)
    (harr : (ts' ++ [t']).flatMap Tick.arrive = msgs.map fun m => InItem.msg m.1 m.2) (eofOk : Bool) (late : Option Nat) :
    (ioFinish c' eofOk late s').2 = st ∧ s'.seen = (msgs.map fun m => InItem.msg m.1 m.2) ∧
    s'.logged = conv c'.replaceErr (outsOf 0x192 msgs).flatten ∧
    s'.written <+: buf' ++ conv c'.replaceOut (dataBefore c'.maxChunk (msgs.map fun m => InItem.msg m.1 m.2)) := by
  have hrun : ioRun c' (ts' ++ [t']) (ioStart c' socket' false buf' pfx') = .leave s' := by
    rw [ioRun_append, h1]
    dsimp only
    rw [ioRun, h2]
  obtain ⟨k1, k2⟩ := C63_client c' hc' socket' false buf' pfx' _ s' hrun eofOk late
  obtain ⟨a1, a2, a3⟩ := ioTick_leave c' hc' t' s1 s' hpoll h2
  have hitems : s'.seen ++ s'.inbox = msgs.map toItem := by
    have := (C48_kept c' socket' false buf' pfx' ts' s1 h1).1
    rw [a2, a3, ← List.append_assoc, this]
    rw [List.flatMap_append] at harr
    simp only [List.flatMap_cons, List.flatMap_nil, List.append_nil] at harr
    exact harr
  have hall : s'.seen = msgs.map toItem := by
    rcases a1 with a1 | a1
    · by_contra hne
      have hT := (ioRun_track c' hc' _ _ (by
        unfold Track ioStart
        refine ⟨rfl, ?_⟩
        simp [stderrData, conv]) (by rw [hrun]; trivial) :
          Track c' (ioRun c' (ts' ++ [t']) (ioStart c' socket' false buf' pfx')).st)
      rw [hrun] at hT
      have hx : lastExit s'.seen ≠ none := by
        intro hn
        have := hT.1
        simp only [IoStep.st] at this
        rw [hn] at this
        simp at this
        omega
      apply hx
      rw [e1, List.map_append] at hitems
      have hpre : s'.seen <+: pre.map toItem := by
        have hib : s'.inbox ≠ [] := by
          intro hn
          rw [hn, List.append_nil, ← List.map_append, ← e1] at hitems
          exact hne hitems
        have hlast := congrArg List.dropLast hitems
        rw [List.dropLast_append_of_ne_nil hib] at hlast
        simp only [List.map_cons, List.map_nil, List.dropLast_concat] at hlast
        exact ⟨_, hlast⟩
      obtain ⟨rest, hrest⟩ := hpre
      have hn := lastExit_none pre e2
      rw [← hrest] at hn
      clear hrest hitems hx hT hne
      generalize s'.seen = l at hn ⊢
      induction rest using List.reverseRecOn with
      | nil => simpa using hn
      | append_singleton rest i ih =>
        apply ih
        rw [← List.append_assoc, lastExit_snoc] at hn
        cases i with
        | broken => exact hn
        | msg t d =>
          dsimp only at hn
          split_ifs at hn
          exact hn
    · rw [a1, List.append_nil] at hitems; exact hitems
  have hlast : lastExit s'.seen = some (st : Int) := by
    rw [hall, e1, List.map_append, List.map_cons, List.map_nil, lastExit_snoc]
    simp only [toItem, if_true]
    have hlen : (i32le (st : Int)).length = 4 := rfl
    rw [if_neg (by omega)]
    have := i32of_i32le (st : Int) (by omega) (by omega) []
    rw [List.append_nil] at this
    rw [this]
  refine ⟨?_, hall, ?_, ?_⟩
  · rw [k1, hlast, hpid']
    unfold callResult
    simp only [ne_eq, Bool.false_eq_true, if_false]
    split_ifs with h0 <;> omega
  · rw [k2, hall, stderrData_items]
  · have := (C48_prefix c' socket' false buf' pfx' _ _ hrun).2
    simp only [IoStep.st] at this
    rw [hall] at this
    exact this

/-! ## Examples -/

def exStartW : StartWorld :=
  { fs := fun p => if p = c!"/etc/qubes-rpc/my.Echo" then .ok (.other true)
      else if p = c!"/etc/qubes-rpc/my.Sock" then .ok .sock else .enoent,
    bufSize := 4096, pathList := c!"/usr/local/etc/qubes-rpc:/etc/qubes-rpc", connects := true, forks := true, writes := true }

def exStartCmd (name : Str) : VaCmd :=
  (⟨some c!"user", false, name ++ c!"+a work", some ⟨name ++ c!"+a", name, some c!"a", c!"work"⟩⟩, {})

set_option maxRecDepth 20000 in
/-- no such service: 127 -/
example : agentServe exStartW 0x200 (some (exStartCmd c!"my.None")) 3 false false =
    .atOnce [(0x191, []), (0x192, []), (0x193, i32le 127)] 127 := by
  unfold agentServe
  rw [if_neg (by decide), if_pos rfl]
  have h : executeParsed exStartW (exStartCmd c!"my.None").1 (exStartCmd c!"my.None").2.sendDescriptor = .fails (-1) := by decide
  generalize exStartCmd c!"my.None" = x at h
  obtain ⟨rc, conf⟩ := x
  dsimp only at h ⊢
  rw [h]
  rfl

set_option maxRecDepth 20000 in
/-- it fails to start: 125 -/
example : executeParsed { exStartW with forks := false } (exStartCmd c!"my.Echo").1 true = .fails (-2) := by decide
set_option maxRecDepth 20000 in
/-- a socket service gets the description of the call first -/
example : executeParsed exStartW (exStartCmd c!"my.Sock").1 true = .socket (c!"my.Sock+a work" ++ [Char.ofNat 0]) := by decide
set_option maxRecDepth 20000 in
example : executeParsed exStartW (exStartCmd c!"my.Echo").1 true = .process := by decide
set_option maxRecDepth 20000 in
example : justExec exStartW (some (exStartCmd c!"my.Echo")) = 0 ∧ justExec exStartW (some (exStartCmd c!"my.None")) = 127 ∧
    justExec { exStartW with connects := false } (some (exStartCmd c!"my.Sock")) = 125 := by decide

set_option maxRecDepth 20000 in
/-- in dom0, a socket service with a configuration -/
example : ∃ c, dom0Serve exStartW (fun _ => some { exitOnClientEof := true, sendDescriptor := false }) (some (exStartCmd c!"my.Sock").1) 3 =
    .io c true false [] ∧ c.exitOnStdinEof = true ∧ c.exitOnStdoutEof = false := by
  have h : executeParsed exStartW (exStartCmd c!"my.Sock").1 false = .socket [] := by decide
  have hn : (exStartCmd c!"my.Sock").1.nogui = false := rfl
  have hs : (exStartCmd c!"my.Sock").1.service.isSome = true := rfl
  generalize (exStartCmd c!"my.Sock").1 = x at h hn hs
  obtain ⟨s, hs⟩ := Option.isSome_iff_exists.1 hs
  refine ⟨⟨true, false, false, false, true, false, maxDataChunk 3, false, some 0⟩, ?_, rfl, rfl⟩
  unfold dom0Serve prepareLocal dom0Conf
  dsimp only
  rw [if_neg (by simp [hn]), hs]
  dsimp only
  rw [h]

end Qrexec
