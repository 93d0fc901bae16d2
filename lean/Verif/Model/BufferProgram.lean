import Verif.Model.ListenerThread
import Verif.Model.BufferServer

/-!
# The program `buffer_server`

Models `main` of tf2_ros/src/buffer_server_main.cpp:41-71: a buffer, a listener with its own thread (Model/ListenerThread)
and a buffer server (Model/BufferServer) on that buffer, in one process; the callbacks of the server run in `ros::spin()`
of the main thread.

External, after roscpp: `ros::spin()` calls one callback at a time; the goals, the cancel requests and the timer of the
server are callbacks there, the listener's subscriptions are not; an exception that leaves a callback, in either
thread, ends the process. Both threads read the same ROS clock.

Simplified: reading the parameters (buffer_size, publish_frame_service, use_node_namespace) is left out: `D` is the size,
the name of the action server and the service `tf2_frames` do not matter here; what happens before the constructor of the
listener has told the buffer about its thread (`ready`) happens before the server exists; shutting down is left out.
-/
namespace Tf2.BufProg

variable {X : Type}

/-- The process: the listener with the buffer; the server, whose `buf` is that same buffer and whose `now` is the ROS
clock. -/
structure Process (X : Type) where
  listener : Spin.St X
  server : Server X
  dead : Bool := false

/-- What happens in the two threads. -/
inductive PEv (X : Type) where
  | heard (e : Spin.Ev X)
  | served (e : SEv X)

/-- The buffer is made and the listener's thread started, buffer_server_main.cpp:65-66. -/
def Process.init (D : Duration) (now : Time) : Process X := { listener := Spin.St.init D, server := Server.init D now }

/-- The main thread waits in `ros::spin()` (buffer_server_main.cpp:67-70). -/
def Process.free (s : Process X) : Bool :=
  s.server.calls.isEmpty && s.server.check.isNone && decide (s.listener.owner = .using)

/-- The event ends the process. -/
def fatal : SEv X → Bool
  | .escaped _ => true
  | .checkEscaped => true
  | .undefined => true
  | _ => false

/-- A step of the listener, its thread or its subscriptions. -/
def Process.listen [Rigid X] (s : Process X) (op : Spin.Op X) : Process X × List (PEv X) :=
  ({ listener := (s.listener.step op).1, server := { s.server with buf := (s.listener.step op).1.lis.rb.buf }
     dead := decide ((s.listener.step op).1.phase = .crashed) }, (s.listener.step op).2.map .heard)

/-- A step of the server, or of the clock. -/
def Process.serve [Rigid X] (s : Process X) (op : SOp X) : Process X × List (PEv X) :=
  ({ s with server := (s.server.step op).1, dead := (s.server.step op).2.any fatal }, (s.server.step op).2.map .served)

/-- Steps: a message arrives at a subscription of the listener; the listener's thread goes on; the constructor of the
listener ends; the ROS clock shows something else; `ros::spin()` calls the callback for a goal, for a cancel request, or
the timer's; the running callback goes on. -/
inductive POp (X : Type) where
  | arrive (st : Bool) (p : Spin.Packet X)
  | thread
  | ready
  | clock (t : Time)
  | goal (g : Goal)
  | cancel (id : Nat)
  | timer
  | spin (text : String)

/-- One step; what is not possible does nothing. -/
def Process.step [Rigid X] (s : Process X) (op : POp X) : Process X × List (PEv X) :=
  if s.dead then (s, [])
  else
    match op with
    | .arrive st p => s.listen (.arrive st p)
    | .thread => s.listen (.thread s.server.now)
    | .ready => s.listen .ready
    | .clock t => s.serve (.clock t)
    | .goal g => if s.free then s.serve (.goal g) else (s, [])
    | .cancel id => if s.free then s.serve (.cancel id) else (s, [])
    | .timer => if s.free then s.serve .checkStart else (s, [])
    | .spin text => if s.server.check.isSome then s.serve (.checkStep text) else s.serve (.goalStep 0 text)

/-- A history; events in order. -/
def Process.run [Rigid X] : List (POp X) → Process X → Process X × List (PEv X)
  | [], s => (s, [])
  | op :: r, s => ((Process.run r (s.step op).1).1, (s.step op).2 ++ (Process.run r (s.step op).1).2)

end Tf2.BufProg
