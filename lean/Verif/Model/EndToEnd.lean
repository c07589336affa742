import Verif.Model.DoExec
import Verif.Model.VmAgent

/-!
# From the request in the agent to the program

What remains to connect the models of the parts: the process that an agent makes for a request it has parsed.
-/
namespace Qrexec

/-- agent/qrexec-agent-data.c:139-190, 260-290 (`handle_just_exec`, `handle_new_process_common`) with
`execute_parsed_qubes_rpc_command` (exec.c:677-703) and `do_exec` (qrexec-agent.c:140-349): the process for the command of a
request and its configuration. `none`: no process. -/
def jobProcess (w : DeWorld) (sw : StartWorld) (cmd : Option VaCmd) : Option (List DeEvent × DeEnd) :=
  match cmd with
  | none => none
  | some (c, conf) => match procOf sw c conf.sendDescriptor with
    | none => none
    | some prog => some (agentDoExec w prog c.command (c.username.getD []))

end Qrexec
