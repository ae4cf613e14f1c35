/-!
# Locks of the library (all `pthread_mutex_*`, `pthread_rwlock_*`, `pthread_join` in /repo/src)

Functions as sequences of the locks they take and release and of the shared data they use, run by any number of threads in any order.
Choices that depend on data are made by the schedule (`or`); how often a loop runs is an argument. A wait on a condition with a timeout is releasing and taking the mutex again.
Simplifications: user callbacks take no locks of the library, except the callback for new Call Home sessions, which may add the session to a pollsession; waiting for the network, libssh, OpenSSL and libcurl ends.
A thread that was not created yet is one that has not run yet. The queue of a pollsession is one lock with a timeout (PsQueue and PsConc have it exactly), so is the lock for RPCs (RpcLock).
`nc_connect_ssh_channel` is left out (C84 says what it does to the lock for input and output).
-/

namespace Verif.Locks

/-- The locks: `server_opts.config_lock`, `bind_lock`, `ch_client_lock`, `cert_exp_notif.lock` (src/session_p.h:499, 507, 573, 593), those of a Call Home client and its thread (src/session_p.h:570, 471), of a session (src/session_p.h:698, 743, 758-766; `fresh` is `ch_lock` of a session that only the thread creating it knows) and of a pollsession (src/session_p.h:795-801). -/
inductive Lk where
  | config
  | bind
  | chClients
  | client (i : Nat)
  | cond (i : Nat)
  | cert
  | chS (s : Nat)
  | fresh (s : Nat)
  | ntf (s : Nat)
  | rpc (s : Nat)
  | io (s : Nat)
  | msgs (s : Nat)
  | ps (p : Nat)
  | psM (p : Nat)
  deriving DecidableEq, Repr

/-- Shared data: what is configured for listening, with the keystore, the truststore and settings of SSH (src/session_p.h:488-525), the array of Call Home clients (src/session_p.h:571-572), the configuration of one (src/session_p.h:529-570), the intervals of certificate notifications (src/session_p.h:599-603). -/
inductive Obj where
  | cfg
  | clients
  | clientCfg (i : Nat)
  | intervals
  deriving DecidableEq, Repr

/-- Kinds of threads: of the application, of a Call Home client (src/session_server.c:2988-3162), of certificate notifications (src/session_server.c:3883-3970). -/
inductive Tag where
  | app
  | ch (i : Nat)
  | cert
  deriving DecidableEq, Repr

/-- What a thread does: `pthread_rwlock_rdlock`, `pthread_rwlock_wrlock` or `pthread_mutex_lock`, unlocking, `pthread_mutex_trylock` or `pthread_mutex_clocklock` with what is done on success and on failure, reading or writing data, `pthread_join`, a choice (as called in src/session_server.c:78, 541, 2510, src/session.c:433-437, src/server_config.c:951, 930). -/
inductive Prog where
  | done
  | rd (l : Lk) (k : Prog)
  | wr (l : Lk) (k : Prog)
  | un (l : Lk) (k : Prog)
  | try (l : Lk) (ok fail : Prog)
  | acc (w : Bool) (d : Obj) (k : Prog)
  | join (t : Tag) (k : Prog)
  | or (a b : Prog)
  deriving DecidableEq, Repr

/-- A thread: what it still does, whether it waits as a writer (src/session_server.c:815), the locks it holds and whether for writing. -/
structure Th where
  tag : Tag
  prog : Prog
  arrived : Bool := false
  held : List (Lk × Bool) := []
  deriving DecidableEq, Repr

/-- All threads (src/session_server.c:3200, 4001 create some of them). -/
abbrev St := List Th

/-- Nobody holds the lock: a mutex or a lock for writing can be taken (src/session_server.c:541, src/server_config.c:951). -/
def canWr (st : St) (l : Lk) : Bool := st.all fun th => th.held.all fun h => decide (h.1 ≠ l)

/-- The thread waits for writing (src/session_server.c:815: `PTHREAD_RWLOCK_PREFER_WRITER_NONRECURSIVE_NP`). -/
def waitsToWrite (th : Th) (l : Lk) : Bool :=
  th.arrived && match th.prog with
    | .wr l' _ => decide (l' = l)
    | _ => false

/-- Nobody holds the lock for writing or waits for that: it can be taken for reading (src/session_server.c:815). -/
def canRd (st : St) (l : Lk) : Bool := st.all fun th => decide ((l, true) ∉ th.held) && !waitsToWrite th l

/-- All threads of the kind have ended (src/server_config.c:930, src/session_server.c:4037). -/
def ended (st : St) (t : Tag) : Bool := st.all fun th => decide (th.tag = t → th.prog = .done)

/-- The locks held after unlocking (src/session_server.c:104-111). -/
def drop (l : Lk) (h : List (Lk × Bool)) : List (Lk × Bool) := h.filter fun x => decide (x.1 ≠ l)

/-- One step of thread `t`; `b` makes the choices: the first of two, taking a lock rather than running into its timeout (src/session.c:425-452, 470-508). -/
def step (st : St) (t : Nat) (b : Bool) : Option St :=
  match st[t]? with
  | none => none
  | some th =>
    match th.prog with
    | .done => none
    | .rd l k =>
      if canRd st l = true then some (st.set t { th with prog := k, arrived := false, held := (l, false) :: th.held }) else none
    | .wr l k =>
      if th.arrived = false then some (st.set t { th with arrived := true })
      else if canWr st l = true then some (st.set t { th with prog := k, arrived := false, held := (l, true) :: th.held })
      else none
    | .un l k => some (st.set t { th with prog := k, arrived := false, held := drop l th.held })
    | .try l ok fail =>
      if b = false then some (st.set t { th with prog := fail, arrived := false })
      else if canWr st l = true then some (st.set t { th with prog := ok, arrived := false, held := (l, true) :: th.held })
      else none
    | .acc _ _ k => some (st.set t { th with prog := k, arrived := false })
    | .join w k => if ended st w = true then some (st.set t { th with prog := k, arrived := false }) else none
    | .or p q => some (st.set t { th with prog := if b = true then p else q, arrived := false })

/-- A run of the threads in the order of a schedule (src/session_server.c:3200, 4001: the threads are independent). -/
def run : St → List (Nat × Bool) → Option St
  | st, [] => some st
  | st, (t, b) :: s => (step st t b).bind fun st' => run st' s

/-! ## Functions taking locks -/

/-- `nc_server_ch_client_lock` (src/session_server.c:69-97), also `nc_server_config_get_ch_client_with_lock` (src/server_config.c:480-508). -/
def clientLock (i : Nat) (found missing : Prog) : Prog :=
  .rd .chClients (.acc false .clients (.or (.wr (.client i) found) (.un .chClients missing)))

/-- `nc_server_ch_client_unlock` (src/session_server.c:103-111), `nc_ch_client_unlock` (src/server_config.c:510-517). -/
def clientUnlock (i : Nat) (k : Prog) : Prog := .un (.client i) (.un .chClients k)

/-- `nc_ps_lock` (src/session_server.c:1096-1148). -/
def psLock (p : Nat) (ok fail : Prog) : Prog :=
  .wr (.psM p) (.or (.un (.psM p) fail) (.un (.psM p) (.try (.ps p) (.wr (.psM p) (.un (.psM p) ok)) (.wr (.psM p) (.un (.psM p) fail)))))

/-- `nc_ps_unlock` (src/session_server.c:1150-1186). -/
def psUnlock (p : Nat) (k : Prog) : Prog := .wr (.psM p) (.un (.ps p) (.un (.psM p) k))

/-- `nc_session_io_lock` (src/session.c:424-452): with a timeout or without one. -/
def ioLock (s : Nat) (ok fail : Prog) : Prog := .or (.wr (.io s) ok) (.try (.io s) ok fail)

/-- Reading or writing a message with the lock held for it: `nc_read_msg_io`, `nc_read_msg_poll_io`, `nc_write_msg_io` (src/io.c:270-385, 486-516, 845-1082). -/
def msgIo (s : Nat) (k : Prog) : Prog := ioLock s (.un (.io s) k) k

/-- `nc_session_free` on the server (src/session.c:847-1022, 724-845): `chl` is the lock `ch_lock` of a Call Home session, whose thread may be waited for, `none` for another session. -/
def sessionFree (s : Nat) (chl : Option Lk) (k : Prog) : Prog :=
  let tail (k : Prog) : Prog :=
    match chl with
    | some l => .wr l (.or (.un l (.wr l (.un l (.or (.try (.io s) (.un (.io s) k) k) k)))) (.un l (.or (.try (.io s) (.un (.io s) k) k) k)))
    | none => .or (.try (.io s) (.un (.io s) k) k) k
  .or k (.try (.rpc s) (tail (.un (.rpc s) k)) (.or k (tail k)))

/-- `nc_session_get_notif_status`, `nc_session_inc_notif_status`, `nc_session_dec_notif_status` (src/session_server.c:3239-3294). -/
def ntfStatus (s : Nat) (k : Prog) : Prog := .wr (.ntf s) (.un (.ntf s) k)

/-! ## Configuration -/

/-- What changes the configuration: a node of a listening endpoint, the keystore or the truststore; a node of a Call Home client; creating one; removing one, removing all; removing the references to an endpoint; checking the references; an interval (src/server_config.c:1048-3843, 480-508; 3480-3508; 944-976; 1012-1046; 674-717; 2690-2802; 3968-3990, 4083-4115). A `true` says that the thread of the client runs. -/
inductive Edit where
  | listen
  | client (i : Nat)
  | create
  | remove (i : Nat) (running : Bool)
  | removeAll (is : List (Nat × Bool))
  | delRefs (is : List Nat)
  | checkRefs (is : List Nat)
  | interval
  deriving DecidableEq, Repr

/-- `nc_server_config_destroy_ch_client` (src/server_config.c:912-943). -/
def destroyClient (i : Nat) (running : Bool) (k : Prog) : Prog :=
  .wr (.cond i) (.un (.cond i) (if running = true then .join (.ch i) k else k))

/-- Destroying clients one after the other (src/server_config.c:1039-1042). -/
def destroyClients : List (Nat × Bool) → Prog → Prog
  | [], k => k
  | (i, r) :: is, k => destroyClient i r (destroyClients is k)

/-- The loop over all clients with the lock of each (src/server_config.c:694-713, 2750-2790, src/session_server.c:3711-3730); `w` for writing. -/
def eachClient (w : Bool) : List Nat → Prog → Prog
  | [], k => k
  | i :: is, k => .wr (.client i) (.acc w (.clientCfg i) (.un (.client i) (eachClient w is k)))

/-- One change of the configuration (see `Edit` for the places, such as src/server_config.c:944-976). -/
def edit : Edit → Prog → Prog
  | .listen, k => .acc true .cfg k
  | .client i, k => clientLock i (.acc true (.clientCfg i) (clientUnlock i k)) k
  | .create, k => .wr .chClients (.acc true .clients (.un .chClients k))
  | .remove i r, k => .wr .chClients (.acc true .clients (.or (.un .chClients k) (.un .chClients (destroyClient i r k))))
  | .removeAll is, k => .wr .chClients (.acc true .clients (.un .chClients (destroyClients is k)))
  | .delRefs is, k => .acc true .cfg (.rd .chClients (.acc false .clients (eachClient true is (.un .chClients k))))
  | .checkRefs is, k => .acc true .cfg (.or k (.rd .chClients (.acc false .clients (eachClient true is (.un .chClients k)))))
  | .interval, k => .wr .cert (.acc true .intervals (.un .cert k))

/-- The changes one after the other, each of which may fail (src/server_config.c:4378-4420, 4434-4501). -/
def edits : List Edit → Prog → Prog → Prog
  | [], k, _ => k
  | e :: es, k, fail => edit e (.or (edits es k fail) fail)

/-- `nc_server_config_setup_diff` (src/server_config.c:4367-4421), `nc_server_config_setup_data` (src/server_config.c:4423-4502). -/
def setup (es : List Edit) (k : Prog) : Prog :=
  .wr .config (edits es (.wr .cert (.un .cert (.un .config k))) (.un .config k))

/-- Functions setting one thing: `nc_server_add_endpt_unix_socket_listen`, `nc_server_del_endpt_unix_socket` (src/session_server.c:2349-2416, 2450-2483), `nc_server_ssh_set_interactive_auth_clb`, `nc_server_ssh_set_pam_conf_filename`, `nc_server_ssh_set_authkey_path_format` (src/session_server_ssh.c:970-1042). -/
def setOne (k : Prog) : Prog := .wr .config (.acc true .cfg (.un .config k))

/-! ## Accepting and Call Home -/

/-- `nc_accept` (src/session_server.c:2491-2614) with `nc_sock_accept_binds` (src/session_server.c:526-663); the session is not known to others yet. -/
def accept (s : Nat) (k : Prog) : Prog :=
  .rd .config (.acc false .cfg (.or (.un .config k)
    (.wr .bind (.acc false .cfg (.un .bind (.or (.un .config (sessionFree s none k))
      (.acc false .cfg (.or (.un .config (sessionFree s none k))
        (.un .config (msgIo s (msgIo s (.or k (sessionFree s none k)))))))))))))

/-- `nc_server_ch_is_client` (src/session_server.c:2617-2643). -/
def isClient (k : Prog) : Prog := .rd .chClients (.acc false .clients (.un .chClients k))

/-- `nc_server_ch_client_is_endpt` (src/session_server.c:2645-2681): the endpoints of the client are read without its lock. -/
def isEndpt (i : Nat) (k : Prog) : Prog :=
  .rd .chClients (.acc false .clients (.or (.un .chClients k) (.acc false (.clientCfg i) (.un .chClients k))))

/-- `nc_server_endpt_count` (src/session_server.c:2485-2489). -/
def endptCount (k : Prog) : Prog := .acc false .cfg k

/-- `nc_connect_ch_client_dispatch` (src/session_server.c:3164-3220). -/
def dispatch (i : Nat) (k : Prog) : Prog := clientLock i (.acc true (.clientCfg i) (clientUnlock i k)) k

/-- `nc_server_ch_client_thread_is_running` (src/session_server.c:2934-2949). -/
def isRunning (i : Nat) (yes no : Prog) : Prog := .wr (.cond i) (.un (.cond i) (.or yes no))

/-- `nc_server_ch_client_thread_is_running_wait` (src/session_server.c:2890-2921), woken up `n` times. -/
def runningWait (i : Nat) : Nat → Prog → Prog → Prog
  | 0, yes, no => .wr (.cond i) (.un (.cond i) (.or yes no))
  | n + 1, yes, no => .wr (.cond i) (.un (.cond i) (runningWait i n yes no))

/-- `nc_server_ch_client_with_endpt_lock` (src/session_server.c:2957-2982), finding no endpoints `n` times. -/
def endptLock (i : Nat) : Nat → Prog → Prog → Prog
  | 0, found, missing => clientLock i (.acc false (.clientCfg i) found) missing
  | n + 1, found, missing => clientLock i (.acc false (.clientCfg i) (clientUnlock i (endptLock i n found missing))) missing

/-- `nc_connect_ch_endpt` (src/session_server.c:2694-2786), called with the lock of the client: the configuration of the client, then the keystore, the truststore and referenced endpoints are used. -/
def connect (i s : Nat) (ok fail : Prog) : Prog :=
  .acc false (.clientCfg i) (.or fail (.acc false .cfg (.or (sessionFree s (some (.fresh s)) fail)
    (msgIo s (msgIo s (.or ok (sessionFree s (some (.fresh s)) fail)))))))

/-- The callback for new sessions (src/session_server.c:2812): it may add the session to pollsession `p`. -/
def newSession (p : Option Nat) (k : Prog) : Prog :=
  match p with
  | some p => psLock p (psUnlock p k) k
  | none => k

/-- The loop of `nc_server_ch_client_thread_session_cond_wait` (src/session_server.c:2825-2869), run `n` times. -/
def sessLoop (i s : Nat) : Nat → Prog → Prog
  | 0, k => k
  | n + 1, k =>
    .un (.chS s) (.wr (.chS s) (.or k (clientLock i (.acc false (.clientCfg i) (ntfStatus s (clientUnlock i (sessLoop i s n k)))) k)))

/-- `nc_server_ch_client_thread_session_cond_wait` (src/session_server.c:2798-2879). -/
def sessWait (i s : Nat) (p : Option Nat) (n : Nat) (ended removed : Prog) : Prog :=
  .wr (.chS s) (newSession p (.or (.un (.chS s) (sessionFree s (some (.chS s)) ended))
    (sessLoop i s n (.un (.chS s) (.or ended removed)))))

/-- What happens in one round of the thread of a client: the session, where it is added, how often it is looked at, how often waits are woken up and how often no endpoints are found (src/session_server.c:3010-3148). -/
structure Round where
  sess : Nat
  ps : Option Nat
  looks : Nat
  wakes : Nat
  empty : Nat
  deriving DecidableEq, Repr

/-- The end of the thread (src/session_server.c:3152-3162). -/
def chEnd (i : Nat) : Prog := .wr (.cond i) (.un (.cond i) .done)

/-- The loop of `nc_ch_client_thread` (src/session_server.c:3010-3150), with the lock of the client. -/
def chLoop (i : Nat) : List Round → Prog
  | [] => isRunning i (clientUnlock i (chEnd i)) (clientUnlock i (chEnd i))
  | r :: rs =>
    isRunning i
      (connect i r.sess
        (clientUnlock i (isRunning i (sessWait i r.sess r.ps r.looks
          (isRunning i (endptLock i r.empty (.acc false (.clientCfg i) (.or (chLoop i rs)
            (clientUnlock i (runningWait i r.wakes (endptLock i r.empty (chLoop i rs) (chEnd i)) (chEnd i))))) (chEnd i)) (chEnd i))
          (chEnd i)) (chEnd i)))
        (clientUnlock i (runningWait i r.wakes (endptLock i r.empty (.acc true (.clientCfg i) (chLoop i rs)) (chEnd i)) (chEnd i))))
      (clientUnlock i (chEnd i))

/-- `nc_ch_client_thread` (src/session_server.c:2988-3162). -/
def chThread (i empty : Nat) (rs : List Round) : Prog := endptLock i empty (.acc false (.clientCfg i) (chLoop i rs)) (chEnd i)

/-! ## Notifications of certificates -/

/-- `nc_server_notif_cert_exp_dates_get` (src/session_server.c:3678-3760): the intervals are used without their lock. -/
def datesGet (is : List Nat) (k fail : Prog) : Prog :=
  .acc false .intervals (.rd .config (.acc false .cfg (.or (.un .config fail)
    (.rd .chClients (.acc false .clients (eachClient false is (.un .chClients (.acc false .cfg (.un .config (.or k fail))))))))))

/-- The loop of `nc_server_notif_cert_exp_thread` (src/session_server.c:3909-3957); each entry is a list of clients found or a notification. -/
def certLoop : List (Option (List Nat)) → Prog
  | [] => .wr .cert (.un .cert .done)
  | r :: rs =>
    .wr .cert (.un .cert (.or .done (.wr .cert (.un .cert (.wr .cert (.un .cert
      (match r with
        | some is => .wr .cert (.un .cert (.or .done (.wr .cert (.acc false .intervals (.un .cert (datesGet is (certLoop rs) .done))))))
        | none => .acc false .intervals (certLoop rs))))))))

/-- `nc_server_notif_cert_exp_thread` (src/session_server.c:3883-3970) with `nc_server_notif_cert_exp_intervals_get` (src/session_server.c:3855-3874). -/
def certThread (is : List Nat) (rs : List (Option (List Nat))) : Prog :=
  .wr .cert (.acc false .intervals (.un .cert (datesGet is (certLoop rs) .done)))

/-- `nc_server_notif_cert_expiration_thread_start` (src/session_server.c:3971-4016). -/
def certStart (k : Prog) : Prog := .wr .cert (.un .cert k)

/-- `nc_server_notif_cert_expiration_thread_stop` (src/session_server.c:4018-4050). -/
def certStop (k : Prog) : Prog := .wr .cert (.or (.un .cert k) (.un .cert (.or (.join .cert k) k)))

/-! ## Sessions and pollsessions -/

/-- Polling one session with its RPC lock (src/session_server.c:1785-1943). -/
def pollSess (s : Nat) (k : Prog) : Prog := ntfStatus s (.or k (.try (.io s) (.un (.io s) k) k))

/-- The loops of `nc_ps_poll` (src/session_server.c:2048-2098), which end without a session or with an RPC of a session, whose RPC lock is kept. -/
def pollLoop : List Nat → Prog → (Nat → Prog) → Prog
  | [], nothing, _ => nothing
  | s :: ss, nothing, found =>
    .try (.rpc s) (pollSess s (.or (found s) (.un (.rpc s) (.or nothing (pollLoop ss nothing found))))) (.or nothing (pollLoop ss nothing found))

/-- `nc_ps_poll` (src/session_server.c:2013-2152) on the sessions looked at. -/
def psPoll (p : Nat) (ss : List Nat) (k : Prog) : Prog :=
  psLock p (pollLoop ss (psUnlock p k) fun s => psUnlock p (msgIo s (.or (.un (.rpc s) k) (msgIo s (.un (.rpc s) k))))) k

/-- Freeing sessions one after the other, Call Home sessions are marked (src/session_server.c:2171-2189). -/
def freeAll : List (Nat × Bool) → Prog → Prog
  | [], k => k
  | (s, c) :: ss, k => sessionFree s (if c = true then some (.chS s) else none) (freeAll ss k)

/-- `nc_ps_clear` (src/session_server.c:2154-2196). -/
def psClear (p : Nat) (ss : List (Nat × Bool)) (k : Prog) : Prog := psLock p (freeAll ss (psUnlock p k)) k

/-- `nc_ps_add_session`, `nc_ps_del_session`, `nc_ps_get_session`, `nc_ps_find_session`, `nc_ps_session_count` (src/session_server.c:1225-1258, 1288-1381). -/
def psUse (p : Nat) (k : Prog) : Prog := psLock p (psUnlock p k) k

/-- `nc_ps_accept_ssh_channel` (src/session_server_ssh.c:2064-2127). -/
def acceptChannel (p s : Nat) (k : Prog) : Prog := psLock p (psUnlock p (.or k (msgIo s (msgIo s k)))) k

/-- `recv_msg` of a client (src/session_client.c:2114-2198): the lock for received messages, then for input and output. -/
def recvMsg (s : Nat) (k : Prog) : Prog :=
  let body := .or (.un (.msgs s) k) (msgIo s (.un (.msgs s) k))
  .or (.wr (.msgs s) body) (.try (.msgs s) body k)

/-- `nc_session_free` on the client (src/session.c:889-946, 724-845). -/
def clientFree (s : Nat) (k : Prog) : Prog :=
  let tail : Prog := msgIo s (msgIo s (msgIo s (.or (.try (.io s) (.un (.io s) k) k) k)))
  .or k (.try (.msgs s) (.un (.msgs s) tail) (.or k tail))

/-- `nc_session_free` of a new channel `n` using the lock for input and output of session `s` (src/session_client_ssh.c:1887, 1931, src/session.c:889-946, 724-845), which is running or not. -/
def channelFree (s n : Nat) (running : Bool) (k : Prog) : Prog :=
  let tail : Prog := .try (.io s) (.un (.io s) k) k
  let rest : Prog := if running = true then msgIo s (msgIo s (msgIo s tail)) else tail
  .or k (.try (.msgs n) (.un (.msgs n) rest) (.or k rest))

/-- RPCs sent and replies received by `nc_ctx_check_and_fill` on channel `n` (src/session_client.c:449-461, 848-861, 2114-2198), at most `rpcs` of them. -/
def channelRpcs (s n : Nat) : Nat → Prog → Prog
  | 0, k => k
  | rpcs + 1, k =>
    .or k (msgIo s (.or (.try (.msgs n) (msgIo s (.un (.msgs n) (channelRpcs s n rpcs k))) k) k))

/-- `nc_connect_ssh_channel` of session `s` with the new session `n` (src/session_client_ssh.c:1871-1933). If no channel is opened, the lock for input and output is not released (1901-1906, 1930-1932). -/
def connectChannel (s n : Nat) (opened : Bool) (rpcs : Nat) (k : Prog) : Prog :=
  .wr (.io s) (if opened = true then
      .un (.io s) (.or (channelFree s n false k) (msgIo s (msgIo s (.or (channelFree s n false k)
        (channelRpcs s n rpcs (.or k (channelFree s n true k)))))))
    else channelFree s n false k)

/-- Calls of an application with what decides on their way (see the functions above, such as src/session_server.c:2013-2152). -/
inductive Call where
  | setup (es : List Edit)
  | setOne
  | accept (s : Nat)
  | isClient
  | isEndpt (i : Nat)
  | endptCount
  | dispatch (i : Nat)
  | certStart
  | certStop
  | sessionFree (s : Nat) (callHome : Bool)
  | ntfStatus (s : Nat)
  | psPoll (p : Nat) (ss : List Nat)
  | psClear (p : Nat) (ss : List (Nat × Bool))
  | psUse (p : Nat)
  | acceptChannel (p s : Nat)
  | msgIo (s : Nat)
  | recvMsg (s : Nat)
  | clientFree (s : Nat)
  | openedChannel (s n rpcs : Nat)
  deriving DecidableEq, Repr

/-- The program of a call (src/session_server.c:2013-2152 and the other places above). -/
def Call.prog : Call → Prog → Prog
  | .setup es => Locks.setup es
  | .setOne => Locks.setOne
  | .accept s => Locks.accept s
  | .isClient => Locks.isClient
  | .isEndpt i => Locks.isEndpt i
  | .endptCount => Locks.endptCount
  | .dispatch i => Locks.dispatch i
  | .certStart => Locks.certStart
  | .certStop => Locks.certStop
  | .sessionFree s c => Locks.sessionFree s (if c = true then some (.chS s) else none)
  | .ntfStatus s => Locks.ntfStatus s
  | .psPoll p ss => Locks.psPoll p ss
  | .psClear p ss => Locks.psClear p ss
  | .psUse p => Locks.psUse p
  | .acceptChannel p s => Locks.acceptChannel p s
  | .msgIo s => Locks.msgIo s
  | .recvMsg s => Locks.recvMsg s
  | .clientFree s => Locks.clientFree s
  | .openedChannel s n rpcs => connectChannel s n true rpcs

/-- A thread to start: of the application with its calls, of a Call Home client, of certificate notifications (src/session_server.c:3200, 4001). -/
inductive Start where
  | app (cs : List Call)
  | ch (i empty : Nat) (rs : List Round)
  | cert (is : List Nat) (rs : List (Option (List Nat)))
  deriving DecidableEq, Repr

/-- Calls one after the other (as in src/session_server.c:2154-2196 and others). -/
def calls : List Call → Prog
  | [] => .done
  | c :: cs => c.prog (calls cs)

/-- A thread that has not run yet (src/session_server.c:3200, 4001). -/
def Start.th : Start → Th
  | .app cs => { tag := .app, prog := calls cs }
  | .ch i e rs => { tag := .ch i, prog := chThread i e rs }
  | .cert is rs => { tag := .cert, prog := certThread is rs }

/-- All threads at the beginning (src/session_server.c:798-869: the locks are free). -/
def start (l : List Start) : St := l.map Start.th

end Verif.Locks
