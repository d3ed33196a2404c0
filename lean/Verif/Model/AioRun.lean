import Verif.Model.Aio
/-!
Running an all-in-one set-up (`admin-tool/src/aio/mod.rs`, `aio/execute.rs`, `aio/device.rs`). Names of files and directories are
text (`to_str().unwrap()` in execute.rs:81 panics for others). Not modelled: messages for the user, and what the programs that are
started do (see `Model/MfgClient`, `Model/Device` and the servers).
-/
namespace Verif.AioRun
open Verif Verif.Aio

/-- `ChildBinary` (mod.rs:31-40). -/
inductive Binary where
  | server (x : Daemon)
  | clientLinuxapp
  | manufacturingClient
  | ownerTool
  deriving DecidableEq, Repr

/-- `binary_name` (mod.rs:43-53). -/
def Binary.name : Binary → String
  | .server .manufacturing => "fdo-manufacturing-server"
  | .server .owner => "fdo-owner-onboarding-server"
  | .server .rendezvous => "fdo-rendezvous-server"
  | .server .api => "fdo-serviceinfo-api-server"
  | .clientLinuxapp => "fdo-client-linuxapp"
  | .manufacturingClient => "fdo-manufacturing-client"
  | .ownerTool => "fdo-owner-tool"

/-- `ALL_BINARIES` (mod.rs:21-29). -/
def allBinaries : List Binary :=
  [.server .manufacturing, .server .owner, .server .rendezvous, .server .api, .clientLinuxapp, .manufacturingClient, .ownerTool]

/-- `ALL_DAEMON_BINARIES` (execute.rs:12-17). -/
def daemons : List Daemon := [.manufacturing, .owner, .rendezvous, .api]

/-- `POSSIBLE_BINARY_PATHS` (mod.rs:12-19), without those of builds for debugging. -/
def possiblePaths : List String := ["/usr/bin", "/usr/libexec/fdo"]

/-- `DEFAULT_AIO_DIRECTORY` (mod.rs:6). -/
def defaultDirectory : String := "/etc/fdo/aio"

/-- How a program is started: its working directory (or the one of this program) and additions to the environment of this program. -/
structure Command where
  program : String
  args : List String
  dir : Option String
  env : List (String × String)
  deriving DecidableEq, Repr

/-- How a program ended (`ExitStatus`). -/
inductive Status where
  | code (n : Nat)
  | signal (n : Nat)
  deriving DecidableEq, Repr

/-- `ExitStatus::success`. -/
def Status.success : Status → Bool
  | .code 0 => true
  | _ => false

/-- What happens first to the running set-up (execute.rs:245-259, with 155-176): an interrupt, or the end of a server, whose status may
not be known. -/
inductive Event where
  | interrupt
  | ended (x : Daemon) (s : Option Status)
  deriving DecidableEq, Repr

/-- Effects. Opening a log file and writing its first line is one of them. `post`: a request without content, answered if there is an
HTTP response of whatever kind (the client has no time limit). `elapsed`: milliseconds since the waiting began. `next`: waiting for
an interrupt or the end of a server. `kill`: the handle of a child is dropped (`kill_on_drop`). `run`: a program is started and
waited for. -/
inductive Op where
  | setup (o : Aio.Op)
  | config (p : String)
  | log (p : String)
  | spawn (x : Daemon) (c : Command)
  | post (url : String)
  | elapsed
  | poll (x : Daemon)
  | sleep (ms : Nat)
  | handler
  | next
  | kill (x : Daemon)
  | run (c : Command)

/-- Answers; `none` and `false` are failures. `poll` (`try_wait`): `some none` if it is still running. -/
def Op.Ans : Op → Type
  | .setup o => o.Ans
  | .config _ => Option Args
  | .log _ | .spawn _ _ | .post _ | .handler => Bool
  | .elapsed => Nat
  | .poll _ => Option (Option Status)
  | .sleep _ | .kill _ => Unit
  | .next => Event
  | .run _ => Option Status

abbrev sig : Sig := ⟨Op, Op.Ans⟩

/-- Errors. -/
inductive Fail where
  | setup (e : Aio.Fail)
  | binaries
  | directory
  | config
  | log
  | spawn
  | late
  | died
  | poll
  | handler
  | status
  /-- the number of attempts looked at is over (not in the code) -/
  | cut
  deriving DecidableEq

/-- An effect of the set-up. -/
def ask (o : Aio.Op) : Proc sig Fail o.Ans := Proc.ask (S := sig) (.setup o)

/-- The generation of a set-up as part of this program. -/
def embed {α : Type} : Prog Aio.sig α → Prog sig α
  | .ret a => .ret a
  | .act e k => .act (S := sig) (.setup e) fun a => embed (k a)

/-- Its errors. -/
def liftR {α : Type} : Res Aio.Fail α → Res Fail α
  | .ok a => .ok a
  | .err e => .err (.setup e)
  | .panic => .panic

/-- `is_valid_binary_path` (mod.rs:75-92): up to the first program that is missing. -/
def validPath (p : String) : List Binary → Proc sig Fail Bool
  | [] => pure true
  | b :: r => do
    let there ← ask (.exists? (p ++ "/" ++ b.name))
    if (show Bool from there) then validPath p r else pure false

/-- The loop over the usual places (mod.rs:106-125). -/
def usualPath : List String → Proc sig Fail String
  | [] => Proc.fail .binaries
  | p :: r => do
    let q ← ask (.canonical p)
    match (show Option String from q) with
    | none => usualPath r
    | some q => do
      let ok ← validPath q allBinaries
      if ok then pure q else usualPath r

/-- `find_binary_path` (mod.rs:94-126). -/
def findBinaries : Option String → Proc sig Fail String
  | some p => do
    let q ← ask (.canonical p)
    let q ← Proc.some? .binaries (q : Option String)
    let ok ← validPath q allBinaries
    Proc.check .binaries ok
    pure q
  | none => usualPath possiblePaths

/-! ### The servers -/

/-- `port` (execute.rs:203-211). -/
def port (a : Args) : Daemon → Nat
  | .manufacturing => a.mfgPort
  | .owner => a.ownerPort
  | .rendezvous => a.rvPort
  | .api => a.apiPort

/-- How a server is started (execute.rs:72-88). -/
def serverCommand (dir bin : String) (x : Daemon) : Command where
  program := bin ++ "/" ++ (Binary.server x).name
  args := []
  dir := some (dir ++ "/work")
  env := [("LOG_LEVEL", "trace"), x.environment dir]

/-- `start_binary` (execute.rs:45-93). -/
def startBinary (dir bin : String) (x : Daemon) : Proc sig Fail Unit := do
  let ok ← Proc.ask (S := sig) (.log (path dir "logs" ((Binary.server x).name ++ ".stdout.log")))
  Proc.check .log (show Bool from ok)
  let ok ← Proc.ask (S := sig) (.log (path dir "logs" ((Binary.server x).name ++ ".stderr.log")))
  Proc.check .log (show Bool from ok)
  let ok ← Proc.ask (S := sig) (.spawn x (serverCommand dir bin x))
  Proc.check .spawn (show Bool from ok)

/-- The loop that starts the servers (execute.rs:231-234): also those that have been started when one fails, which are then owned by the
context (`childs`). -/
def startAll (dir bin : String) : List Daemon → List Daemon → Prog sig (List Daemon × Res Fail Unit)
  | [], started => .ret (started, .ok ())
  | x :: r, started =>
    Prog.bind (startBinary dir bin x) fun
      | .ok _ => startAll dir bin r (started ++ [x])
      | .err e => .ret (started, .err e)
      | .panic => .ret (started, .panic)

/-- The URL a server is asked for (execute.rs:107-110). -/
def pingUrl (a : Args) (x : Daemon) : String := "http://localhost:" ++ toString (port a x) ++ "/ping"

/-- `MAX_WAIT_FOR_READY` and `WAIT_BETWEEN_READY_TESTS` (execute.rs:18-19), in milliseconds. -/
def maxWait : Nat := 2000
def pause : Nat := 500

/-- The loop for one server (execute.rs:112-147), with a number of attempts. -/
def awaitOne (a : Args) (started : List Daemon) (x : Daemon) : Nat → Proc sig Fail Unit
  | 0 => Proc.fail .cut
  | n + 1 => do
    let ok ← Proc.ask (S := sig) (.post (pingUrl a x))
    if (show Bool from ok) then pure () else do
      let e ← Proc.ask (S := sig) .elapsed
      Proc.check .late (decide ((show Nat from e) ≤ maxWait))
      if x ∈ started then do
        let s ← Proc.ask (S := sig) (.poll x)
        let s ← Proc.some? .poll (show Option (Option Status) from s)
        Proc.check .died s.isNone
        let _ ← Proc.ask (S := sig) (.sleep pause)
        awaitOne a started x n
      else Proc.lift .panic

/-- `wait_until_ready` (execute.rs:95-153). -/
def awaitAll (n : Nat) (a : Args) (started : List Daemon) : List Daemon → Proc sig Fail Unit
  | [] => pure ()
  | x :: r => do
    awaitOne a started x n
    awaitAll n a started r

/-- What the running set-up does (execute.rs:236-259): `wait_until_done` (155-179) succeeds however a server ended. The `kill`s of
execute.rs:250-252 are futures which are dropped before they do anything. -/
def serve (n : Nat) (a : Args) (started : List Daemon) : Proc sig Fail Unit := do
  awaitAll n a started daemons
  let ok ← Proc.ask (S := sig) .handler
  Proc.check .handler (show Bool from ok)
  let e ← Proc.ask (S := sig) .next
  match (show Event from e) with
  | .interrupt => pure ()
  | .ended _ _ => pure ()

/-- The context is dropped (execute.rs:22-32, 86): all servers that were started are killed. -/
def dropAll : List Daemon → Prog sig Unit
  | [] => .ret ()
  | x :: r => .act (S := sig) (.kill x) fun _ => dropAll r

/-- `execute_aio` (execute.rs:220-260). -/
def execute (n : Nat) (dir bin : String) (a : Args) : Proc sig Fail Unit :=
  Prog.bind (startAll dir bin daemons []) fun s =>
    Prog.bind (match s.2 with
      | .ok _ => serve n a s.1
      | r => .ret r) fun r =>
      Prog.bind (dropAll s.1) fun _ => .ret r

/-! ### Devices -/

/-- Running a program to its end, which must be a success (device.rs:64-75, 108-118, 129-137). -/
def runOk (c : Command) : Proc sig Fail Unit := do
  let s ← Proc.ask (S := sig) (.run c)
  let s ← Proc.some? .spawn (show Option Status from s)
  Proc.check .status s.success

/-- device.rs:125-128. -/
def dumpCommand (bin loc : String) : Command where
  program := bin ++ "/" ++ Binary.ownerTool.name
  args := ["dump-device-credential", loc]
  dir := none
  env := []

/-- device.rs:86-107. -/
def manufactureCommand (dir bin : String) (a : Args) (loc info : String) : Command where
  program := bin ++ "/" ++ Binary.manufacturingClient.name
  args := []
  dir := none
  env := [("LOG_LEVEL", "trace"), ("DIUN_PUB_KEY_ROOTCERTS", path dir "keys" "diun_cert.pem"),
    ("MANUFACTURING_SERVER_URL", "http://localhost:" ++ toString a.mfgPort), ("DI_MFG_STRING_TYPE", "serialnumber"),
    ("MANUFACTURING_INFO", info), ("DEVICE_CREDENTIAL_FILENAME", loc)]

/-- device.rs:43-62. -/
def clientCommand (bin loc : String) (kdf : Bool) : Command where
  program := bin ++ "/" ++ Binary.clientLinuxapp.name
  args := []
  dir := none
  env := [("LOG_LEVEL", "trace"), ("DEVICE_CREDENTIAL", loc), ("DEVICE_ONBOARDING_EXECUTED_MARKER_FILE_PATH", loc ++ ".marker")] ++
    if kdf then [("ALLOW_NONINTEROPERABLE_KDF", "true")] else []

/-- `DeviceSubcommand` (device.rs:17-34). -/
inductive DeviceCommand where
  | manufacture (info : String)
  | analyze
  | run (kdf : Bool)

/-- `run_device_subcommand` (device.rs:140-163) with `manufacture_device`, `print_device_credential` and `run_device`. -/
def device (dir bin : String) (a : Args) (loc : String) : DeviceCommand → Proc sig Fail Unit
  | .manufacture info => do
    runOk (manufactureCommand dir bin a loc info)
    runOk (dumpCommand bin loc)
  | .analyze => runOk (dumpCommand bin loc)
  | .run kdf => runOk (clientCommand bin loc kdf)

/-! ### The program -/

/-- `AioSubcommands` (mod.rs:130-138). -/
inductive Sub where
  | generate (a : Args)
  | run
  | device (loc : String) (c : DeviceCommand)

/-- `AioArgs` (mod.rs:57-72). -/
structure AioArgs where
  directory : Option String
  binaryPath : Option String
  command : Option Sub

/-- The directory: as given, or the usual one, if it is there (mod.rs:145-151). -/
def directoryOf : Option String → Proc sig Fail String
  | some d => pure d
  | none => do
    let there ← ask (.exists? defaultDirectory)
    Proc.check .directory (show Bool from there)
    pure defaultDirectory

/-- A directory that is there (mod.rs:152-163). -/
def settleDirectory (d : String) : Proc sig Fail String := do
  let there ← ask (.exists? d)
  if (show Bool from there) then do
    let q ← ask (.canonical d)
    let q ← Proc.some? .directory (q : Option String)
    let ok ← ask (.isDir q)
    Proc.check .directory (show Bool from ok)
    pure q
  else pure d

variable (showIp : Bytes → String)

/-- A new set-up. -/
def generate (d : String) (a : Args) : Proc sig Fail Unit :=
  Prog.bind (embed (Aio.generate showIp d a)) fun r => .ret (liftR r)

/-- A set-up with the default configuration, unless there is one (mod.rs:175-185). -/
def ensure (d : String) : Bool → Proc sig Fail Unit
  | true => pure ()
  | false => generate showIp d Args.default

/-- The configuration, which is made if there is none (mod.rs:175-199): it is read from the file in each case. -/
def configured (d : String) : Proc sig Fail (String × Args) := do
  let there ← ask (.exists? (d ++ "/aio_configuration"))
  ensure showIp d (show Bool from there)
  let a ← Proc.ask (S := sig) (.config (d ++ "/aio_configuration"))
  let a ← Proc.some? .config (show Option Args from a)
  let q ← ask (.canonical d)
  let q ← Proc.some? .directory (q : Option String)
  pure (q, a)

/-- `run_aio_subcommand` (mod.rs:140-225). -/
def main (n : Nat) (args : AioArgs) : Proc sig Fail Unit := do
  let bin ← findBinaries args.binaryPath
  let d ← directoryOf args.directory
  let d ← settleDirectory d
  match args.command with
  | some (.generate a) => generate showIp d a
  | some (.device loc c) => do
    let q ← configured showIp d
    device q.1 bin q.2 loc c
  | _ => do
    let q ← configured showIp d
    execute n q.1 bin q.2

end Verif.AioRun
