import Verif.Exec.QInv
import Verif.Exec.Spec
/-
Which fields each operation leaves alone (one-line projection lemmas), and the effect of `transition` on each field.
-/
namespace Verif.Exec
open Verif.Node

variable {Val Env : Type} (P : Plan Val Env)

@[simp] theorem notify_st (n : NodeId) (s : St Val Env) : (notify n s).st = s.st := rfl
@[simp] theorem notify_out (n : NodeId) (s : St Val Env) : (notify n s).out = s.out := rfl
@[simp] theorem notify_fail (n : NodeId) (s : St Val Env) : (notify n s).fail = s.fail := rfl
@[simp] theorem notify_nx (n : NodeId) (s : St Val Env) : (notify n s).nx = s.nx := rfl
@[simp] theorem notify_nxO (n : NodeId) (s : St Val Env) : (notify n s).nxO = s.nxO := rfl
@[simp] theorem notify_nxF (n : NodeId) (s : St Val Env) : (notify n s).nxF = s.nxF := rfl
@[simp] theorem notify_vars (n : NodeId) (s : St Val Env) : (notify n s).vars = s.vars := rfl
@[simp] theorem notify_saved (n : NodeId) (s : St Val Env) : (notify n s).saved = s.saved := rfl
@[simp] theorem notify_fixed (n : NodeId) (s : St Val Env) : (notify n s).fixed = s.fixed := rfl
@[simp] theorem notify_ack (n : NodeId) (s : St Val Env) : (notify n s).ack = s.ack := rfl
@[simp] theorem notify_abort (n : NodeId) (s : St Val Env) : (notify n s).abort = s.abort := rfl
@[simp] theorem notify_env (n : NodeId) (s : St Val Env) : (notify n s).env = s.env := rfl
@[simp] theorem notify_holder (n : NodeId) (s : St Val Env) : (notify n s).holder = s.holder := rfl
@[simp] theorem notify_waiters (n : NodeId) (s : St Val Env) : (notify n s).waiters = s.waiters := rfl
@[simp] theorem notify_change (n : NodeId) (s : St Val Env) : (notify n s).change = s.change := rfl
@[simp] theorem notify_pending (n : NodeId) (s : St Val Env) : (notify n s).pending = s.pending := rfl
@[simp] theorem notify_asg (n : NodeId) (s : St Val Env) : (notify n s).asg = s.asg := rfl
@[simp] theorem notify_ret (n : NodeId) (s : St Val Env) : (notify n s).ret = s.ret := rfl
@[simp] theorem notify_cmds (n : NodeId) (s : St Val Env) : (notify n s).cmds = s.cmds := rfl
@[simp] theorem notify_aborts (n : NodeId) (s : St Val Env) : (notify n s).aborts = s.aborts := rfl
@[simp] theorem notify_upds (n : NodeId) (s : St Val Env) : (notify n s).upds = s.upds := rfl
@[simp] theorem notify_fin (n : NodeId) (s : St Val Env) : (notify n s).fin = s.fin := rfl
@[simp] theorem notify_log (n : NodeId) (s : St Val Env) : (notify n s).log = s.log := rfl
@[simp] theorem notify_base (n : NodeId) (s : St Val Env) : (notify n s).base = s.base := rfl

@[simp] theorem notifyAll_st (ns : List NodeId) (s : St Val Env) : (notifyAll ns s).st = s.st := by
  obtain ⟨_, _, _, h⟩ := notifyAll_frame ns s; rw [h]
@[simp] theorem notifyAll_out (ns : List NodeId) (s : St Val Env) : (notifyAll ns s).out = s.out := by
  obtain ⟨_, _, _, h⟩ := notifyAll_frame ns s; rw [h]
@[simp] theorem notifyAll_fail (ns : List NodeId) (s : St Val Env) : (notifyAll ns s).fail = s.fail := by
  obtain ⟨_, _, _, h⟩ := notifyAll_frame ns s; rw [h]
@[simp] theorem notifyAll_nx (ns : List NodeId) (s : St Val Env) : (notifyAll ns s).nx = s.nx := by
  obtain ⟨_, _, _, h⟩ := notifyAll_frame ns s; rw [h]
@[simp] theorem notifyAll_nxO (ns : List NodeId) (s : St Val Env) : (notifyAll ns s).nxO = s.nxO := by
  obtain ⟨_, _, _, h⟩ := notifyAll_frame ns s; rw [h]
@[simp] theorem notifyAll_nxF (ns : List NodeId) (s : St Val Env) : (notifyAll ns s).nxF = s.nxF := by
  obtain ⟨_, _, _, h⟩ := notifyAll_frame ns s; rw [h]
@[simp] theorem notifyAll_vars (ns : List NodeId) (s : St Val Env) : (notifyAll ns s).vars = s.vars := by
  obtain ⟨_, _, _, h⟩ := notifyAll_frame ns s; rw [h]
@[simp] theorem notifyAll_saved (ns : List NodeId) (s : St Val Env) : (notifyAll ns s).saved = s.saved := by
  obtain ⟨_, _, _, h⟩ := notifyAll_frame ns s; rw [h]
@[simp] theorem notifyAll_fixed (ns : List NodeId) (s : St Val Env) : (notifyAll ns s).fixed = s.fixed := by
  obtain ⟨_, _, _, h⟩ := notifyAll_frame ns s; rw [h]
@[simp] theorem notifyAll_ack (ns : List NodeId) (s : St Val Env) : (notifyAll ns s).ack = s.ack := by
  obtain ⟨_, _, _, h⟩ := notifyAll_frame ns s; rw [h]
@[simp] theorem notifyAll_abort (ns : List NodeId) (s : St Val Env) : (notifyAll ns s).abort = s.abort := by
  obtain ⟨_, _, _, h⟩ := notifyAll_frame ns s; rw [h]
@[simp] theorem notifyAll_env (ns : List NodeId) (s : St Val Env) : (notifyAll ns s).env = s.env := by
  obtain ⟨_, _, _, h⟩ := notifyAll_frame ns s; rw [h]
@[simp] theorem notifyAll_holder (ns : List NodeId) (s : St Val Env) : (notifyAll ns s).holder = s.holder := by
  obtain ⟨_, _, _, h⟩ := notifyAll_frame ns s; rw [h]
@[simp] theorem notifyAll_waiters (ns : List NodeId) (s : St Val Env) : (notifyAll ns s).waiters = s.waiters := by
  obtain ⟨_, _, _, h⟩ := notifyAll_frame ns s; rw [h]
@[simp] theorem notifyAll_change (ns : List NodeId) (s : St Val Env) : (notifyAll ns s).change = s.change := by
  obtain ⟨_, _, _, h⟩ := notifyAll_frame ns s; rw [h]
@[simp] theorem notifyAll_pending (ns : List NodeId) (s : St Val Env) : (notifyAll ns s).pending = s.pending := by
  obtain ⟨_, _, _, h⟩ := notifyAll_frame ns s; rw [h]
@[simp] theorem notifyAll_asg (ns : List NodeId) (s : St Val Env) : (notifyAll ns s).asg = s.asg := by
  obtain ⟨_, _, _, h⟩ := notifyAll_frame ns s; rw [h]
@[simp] theorem notifyAll_ret (ns : List NodeId) (s : St Val Env) : (notifyAll ns s).ret = s.ret := by
  obtain ⟨_, _, _, h⟩ := notifyAll_frame ns s; rw [h]
@[simp] theorem notifyAll_cmds (ns : List NodeId) (s : St Val Env) : (notifyAll ns s).cmds = s.cmds := by
  obtain ⟨_, _, _, h⟩ := notifyAll_frame ns s; rw [h]
@[simp] theorem notifyAll_aborts (ns : List NodeId) (s : St Val Env) : (notifyAll ns s).aborts = s.aborts := by
  obtain ⟨_, _, _, h⟩ := notifyAll_frame ns s; rw [h]
@[simp] theorem notifyAll_upds (ns : List NodeId) (s : St Val Env) : (notifyAll ns s).upds = s.upds := by
  obtain ⟨_, _, _, h⟩ := notifyAll_frame ns s; rw [h]
@[simp] theorem notifyAll_fin (ns : List NodeId) (s : St Val Env) : (notifyAll ns s).fin = s.fin := by
  obtain ⟨_, _, _, h⟩ := notifyAll_frame ns s; rw [h]
@[simp] theorem notifyAll_log (ns : List NodeId) (s : St Val Env) : (notifyAll ns s).log = s.log := by
  obtain ⟨_, _, _, h⟩ := notifyAll_frame ns s; rw [h]
@[simp] theorem notifyAll_base (ns : List NodeId) (s : St Val Env) : (notifyAll ns s).base = s.base := by
  obtain ⟨_, _, _, h⟩ := notifyAll_frame ns s; rw [h]

@[simp] theorem release_st (r : Res) (n : NodeId) (s : St Val Env) : (release r n s).st = s.st := by unfold release; split <;> rfl
@[simp] theorem release_out (r : Res) (n : NodeId) (s : St Val Env) : (release r n s).out = s.out := by unfold release; split <;> rfl
@[simp] theorem release_fail (r : Res) (n : NodeId) (s : St Val Env) : (release r n s).fail = s.fail := by unfold release; split <;> rfl
@[simp] theorem release_nx (r : Res) (n : NodeId) (s : St Val Env) : (release r n s).nx = s.nx := by unfold release; split <;> rfl
@[simp] theorem release_nxO (r : Res) (n : NodeId) (s : St Val Env) : (release r n s).nxO = s.nxO := by unfold release; split <;> rfl
@[simp] theorem release_nxF (r : Res) (n : NodeId) (s : St Val Env) : (release r n s).nxF = s.nxF := by unfold release; split <;> rfl
@[simp] theorem release_vars (r : Res) (n : NodeId) (s : St Val Env) : (release r n s).vars = s.vars := by unfold release; split <;> rfl
@[simp] theorem release_saved (r : Res) (n : NodeId) (s : St Val Env) : (release r n s).saved = s.saved := by unfold release; split <;> rfl
@[simp] theorem release_fixed (r : Res) (n : NodeId) (s : St Val Env) : (release r n s).fixed = s.fixed := by unfold release; split <;> rfl
@[simp] theorem release_ack (r : Res) (n : NodeId) (s : St Val Env) : (release r n s).ack = s.ack := by unfold release; split <;> rfl
@[simp] theorem release_abort (r : Res) (n : NodeId) (s : St Val Env) : (release r n s).abort = s.abort := by unfold release; split <;> rfl
@[simp] theorem release_env (r : Res) (n : NodeId) (s : St Val Env) : (release r n s).env = s.env := by unfold release; split <;> rfl
@[simp] theorem release_waiters (r : Res) (n : NodeId) (s : St Val Env) : (release r n s).waiters = s.waiters := by unfold release; split <;> rfl
@[simp] theorem release_cand (r : Res) (n : NodeId) (s : St Val Env) : (release r n s).cand = s.cand := by unfold release; split <;> rfl
@[simp] theorem release_change (r : Res) (n : NodeId) (s : St Val Env) : (release r n s).change = s.change := by unfold release; split <;> rfl
@[simp] theorem release_pending (r : Res) (n : NodeId) (s : St Val Env) : (release r n s).pending = s.pending := by unfold release; split <;> rfl
@[simp] theorem release_asg (r : Res) (n : NodeId) (s : St Val Env) : (release r n s).asg = s.asg := by unfold release; split <;> rfl
@[simp] theorem release_ret (r : Res) (n : NodeId) (s : St Val Env) : (release r n s).ret = s.ret := by unfold release; split <;> rfl
@[simp] theorem release_cmds (r : Res) (n : NodeId) (s : St Val Env) : (release r n s).cmds = s.cmds := by unfold release; split <;> rfl
@[simp] theorem release_aborts (r : Res) (n : NodeId) (s : St Val Env) : (release r n s).aborts = s.aborts := by unfold release; split <;> rfl
@[simp] theorem release_upds (r : Res) (n : NodeId) (s : St Val Env) : (release r n s).upds = s.upds := by unfold release; split <;> rfl
@[simp] theorem release_fin (r : Res) (n : NodeId) (s : St Val Env) : (release r n s).fin = s.fin := by unfold release; split <;> rfl
@[simp] theorem release_err (r : Res) (n : NodeId) (s : St Val Env) : (release r n s).err = s.err := by unfold release; split <;> rfl
@[simp] theorem release_log (r : Res) (n : NodeId) (s : St Val Env) : (release r n s).log = s.log := by unfold release; split <;> rfl
@[simp] theorem release_base (r : Res) (n : NodeId) (s : St Val Env) : (release r n s).base = s.base := by unfold release; split <;> rfl

@[simp] theorem releaseAll_st (n : NodeId) (rs : List Res) (s : St Val Env) : (releaseAll n rs s).st = s.st := by
  unfold releaseAll; induction rs generalizing s with
  | nil => rfl
  | cons r rs ih => exact (ih _).trans (release_st r n s)
@[simp] theorem releaseAll_out (n : NodeId) (rs : List Res) (s : St Val Env) : (releaseAll n rs s).out = s.out := by
  unfold releaseAll; induction rs generalizing s with
  | nil => rfl
  | cons r rs ih => exact (ih _).trans (release_out r n s)
@[simp] theorem releaseAll_fail (n : NodeId) (rs : List Res) (s : St Val Env) : (releaseAll n rs s).fail = s.fail := by
  unfold releaseAll; induction rs generalizing s with
  | nil => rfl
  | cons r rs ih => exact (ih _).trans (release_fail r n s)
@[simp] theorem releaseAll_nx (n : NodeId) (rs : List Res) (s : St Val Env) : (releaseAll n rs s).nx = s.nx := by
  unfold releaseAll; induction rs generalizing s with
  | nil => rfl
  | cons r rs ih => exact (ih _).trans (release_nx r n s)
@[simp] theorem releaseAll_nxO (n : NodeId) (rs : List Res) (s : St Val Env) : (releaseAll n rs s).nxO = s.nxO := by
  unfold releaseAll; induction rs generalizing s with
  | nil => rfl
  | cons r rs ih => exact (ih _).trans (release_nxO r n s)
@[simp] theorem releaseAll_nxF (n : NodeId) (rs : List Res) (s : St Val Env) : (releaseAll n rs s).nxF = s.nxF := by
  unfold releaseAll; induction rs generalizing s with
  | nil => rfl
  | cons r rs ih => exact (ih _).trans (release_nxF r n s)
@[simp] theorem releaseAll_vars (n : NodeId) (rs : List Res) (s : St Val Env) : (releaseAll n rs s).vars = s.vars := by
  unfold releaseAll; induction rs generalizing s with
  | nil => rfl
  | cons r rs ih => exact (ih _).trans (release_vars r n s)
@[simp] theorem releaseAll_saved (n : NodeId) (rs : List Res) (s : St Val Env) : (releaseAll n rs s).saved = s.saved := by
  unfold releaseAll; induction rs generalizing s with
  | nil => rfl
  | cons r rs ih => exact (ih _).trans (release_saved r n s)
@[simp] theorem releaseAll_fixed (n : NodeId) (rs : List Res) (s : St Val Env) : (releaseAll n rs s).fixed = s.fixed := by
  unfold releaseAll; induction rs generalizing s with
  | nil => rfl
  | cons r rs ih => exact (ih _).trans (release_fixed r n s)
@[simp] theorem releaseAll_ack (n : NodeId) (rs : List Res) (s : St Val Env) : (releaseAll n rs s).ack = s.ack := by
  unfold releaseAll; induction rs generalizing s with
  | nil => rfl
  | cons r rs ih => exact (ih _).trans (release_ack r n s)
@[simp] theorem releaseAll_abort (n : NodeId) (rs : List Res) (s : St Val Env) : (releaseAll n rs s).abort = s.abort := by
  unfold releaseAll; induction rs generalizing s with
  | nil => rfl
  | cons r rs ih => exact (ih _).trans (release_abort r n s)
@[simp] theorem releaseAll_env (n : NodeId) (rs : List Res) (s : St Val Env) : (releaseAll n rs s).env = s.env := by
  unfold releaseAll; induction rs generalizing s with
  | nil => rfl
  | cons r rs ih => exact (ih _).trans (release_env r n s)
@[simp] theorem releaseAll_waiters (n : NodeId) (rs : List Res) (s : St Val Env) : (releaseAll n rs s).waiters = s.waiters := by
  unfold releaseAll; induction rs generalizing s with
  | nil => rfl
  | cons r rs ih => exact (ih _).trans (release_waiters r n s)
@[simp] theorem releaseAll_cand (n : NodeId) (rs : List Res) (s : St Val Env) : (releaseAll n rs s).cand = s.cand := by
  unfold releaseAll; induction rs generalizing s with
  | nil => rfl
  | cons r rs ih => exact (ih _).trans (release_cand r n s)
@[simp] theorem releaseAll_change (n : NodeId) (rs : List Res) (s : St Val Env) : (releaseAll n rs s).change = s.change := by
  unfold releaseAll; induction rs generalizing s with
  | nil => rfl
  | cons r rs ih => exact (ih _).trans (release_change r n s)
@[simp] theorem releaseAll_pending (n : NodeId) (rs : List Res) (s : St Val Env) : (releaseAll n rs s).pending = s.pending := by
  unfold releaseAll; induction rs generalizing s with
  | nil => rfl
  | cons r rs ih => exact (ih _).trans (release_pending r n s)
@[simp] theorem releaseAll_asg (n : NodeId) (rs : List Res) (s : St Val Env) : (releaseAll n rs s).asg = s.asg := by
  unfold releaseAll; induction rs generalizing s with
  | nil => rfl
  | cons r rs ih => exact (ih _).trans (release_asg r n s)
@[simp] theorem releaseAll_ret (n : NodeId) (rs : List Res) (s : St Val Env) : (releaseAll n rs s).ret = s.ret := by
  unfold releaseAll; induction rs generalizing s with
  | nil => rfl
  | cons r rs ih => exact (ih _).trans (release_ret r n s)
@[simp] theorem releaseAll_cmds (n : NodeId) (rs : List Res) (s : St Val Env) : (releaseAll n rs s).cmds = s.cmds := by
  unfold releaseAll; induction rs generalizing s with
  | nil => rfl
  | cons r rs ih => exact (ih _).trans (release_cmds r n s)
@[simp] theorem releaseAll_aborts (n : NodeId) (rs : List Res) (s : St Val Env) : (releaseAll n rs s).aborts = s.aborts := by
  unfold releaseAll; induction rs generalizing s with
  | nil => rfl
  | cons r rs ih => exact (ih _).trans (release_aborts r n s)
@[simp] theorem releaseAll_upds (n : NodeId) (rs : List Res) (s : St Val Env) : (releaseAll n rs s).upds = s.upds := by
  unfold releaseAll; induction rs generalizing s with
  | nil => rfl
  | cons r rs ih => exact (ih _).trans (release_upds r n s)
@[simp] theorem releaseAll_fin (n : NodeId) (rs : List Res) (s : St Val Env) : (releaseAll n rs s).fin = s.fin := by
  unfold releaseAll; induction rs generalizing s with
  | nil => rfl
  | cons r rs ih => exact (ih _).trans (release_fin r n s)
@[simp] theorem releaseAll_err (n : NodeId) (rs : List Res) (s : St Val Env) : (releaseAll n rs s).err = s.err := by
  unfold releaseAll; induction rs generalizing s with
  | nil => rfl
  | cons r rs ih => exact (ih _).trans (release_err r n s)
@[simp] theorem releaseAll_log (n : NodeId) (rs : List Res) (s : St Val Env) : (releaseAll n rs s).log = s.log := by
  unfold releaseAll; induction rs generalizing s with
  | nil => rfl
  | cons r rs ih => exact (ih _).trans (release_log r n s)
@[simp] theorem releaseAll_base (n : NodeId) (rs : List Res) (s : St Val Env) : (releaseAll n rs s).base = s.base := by
  unfold releaseAll; induction rs generalizing s with
  | nil => rfl
  | cons r rs ih => exact (ih _).trans (release_base r n s)

@[simp] theorem resetNode_st (n : NodeId) (s : St Val Env) : (resetNode n s).st = s.st := rfl
@[simp] theorem resetNode_nx (n : NodeId) (s : St Val Env) : (resetNode n s).nx = s.nx := rfl
@[simp] theorem resetNode_nxO (n : NodeId) (s : St Val Env) : (resetNode n s).nxO = s.nxO := rfl
@[simp] theorem resetNode_nxF (n : NodeId) (s : St Val Env) : (resetNode n s).nxF = s.nxF := rfl
@[simp] theorem resetNode_q (n : NodeId) (s : St Val Env) : (resetNode n s).q = s.q := rfl
@[simp] theorem resetNode_vars (n : NodeId) (s : St Val Env) : (resetNode n s).vars = s.vars := rfl
@[simp] theorem resetNode_saved (n : NodeId) (s : St Val Env) : (resetNode n s).saved = s.saved := rfl
@[simp] theorem resetNode_fixed (n : NodeId) (s : St Val Env) : (resetNode n s).fixed = s.fixed := rfl
@[simp] theorem resetNode_ack (n : NodeId) (s : St Val Env) : (resetNode n s).ack = s.ack := rfl
@[simp] theorem resetNode_abort (n : NodeId) (s : St Val Env) : (resetNode n s).abort = s.abort := rfl
@[simp] theorem resetNode_env (n : NodeId) (s : St Val Env) : (resetNode n s).env = s.env := rfl
@[simp] theorem resetNode_holder (n : NodeId) (s : St Val Env) : (resetNode n s).holder = s.holder := rfl
@[simp] theorem resetNode_waiters (n : NodeId) (s : St Val Env) : (resetNode n s).waiters = s.waiters := rfl
@[simp] theorem resetNode_cand (n : NodeId) (s : St Val Env) : (resetNode n s).cand = s.cand := rfl
@[simp] theorem resetNode_change (n : NodeId) (s : St Val Env) : (resetNode n s).change = s.change := rfl
@[simp] theorem resetNode_pending (n : NodeId) (s : St Val Env) : (resetNode n s).pending = s.pending := rfl
@[simp] theorem resetNode_asg (n : NodeId) (s : St Val Env) : (resetNode n s).asg = s.asg := rfl
@[simp] theorem resetNode_ret (n : NodeId) (s : St Val Env) : (resetNode n s).ret = s.ret := rfl
@[simp] theorem resetNode_cmds (n : NodeId) (s : St Val Env) : (resetNode n s).cmds = s.cmds := rfl
@[simp] theorem resetNode_aborts (n : NodeId) (s : St Val Env) : (resetNode n s).aborts = s.aborts := rfl
@[simp] theorem resetNode_upds (n : NodeId) (s : St Val Env) : (resetNode n s).upds = s.upds := rfl
@[simp] theorem resetNode_fin (n : NodeId) (s : St Val Env) : (resetNode n s).fin = s.fin := rfl
@[simp] theorem resetNode_err (n : NodeId) (s : St Val Env) : (resetNode n s).err = s.err := rfl
@[simp] theorem resetNode_log (n : NodeId) (s : St Val Env) : (resetNode n s).log = s.log := rfl
@[simp] theorem resetNode_base (n : NodeId) (s : St Val Env) : (resetNode n s).base = s.base := rfl

@[simp] theorem initLocals_st (l : List (Nat × (Obs Val Env → Val))) (s : St Val Env) : (initLocals l s).st = s.st := by
  induction l generalizing s with
  | nil => rfl
  | cons x l ih => obtain ⟨v, g⟩ := x; exact ih _
@[simp] theorem initLocals_out (l : List (Nat × (Obs Val Env → Val))) (s : St Val Env) : (initLocals l s).out = s.out := by
  induction l generalizing s with
  | nil => rfl
  | cons x l ih => obtain ⟨v, g⟩ := x; exact ih _
@[simp] theorem initLocals_fail (l : List (Nat × (Obs Val Env → Val))) (s : St Val Env) : (initLocals l s).fail = s.fail := by
  induction l generalizing s with
  | nil => rfl
  | cons x l ih => obtain ⟨v, g⟩ := x; exact ih _
@[simp] theorem initLocals_nx (l : List (Nat × (Obs Val Env → Val))) (s : St Val Env) : (initLocals l s).nx = s.nx := by
  induction l generalizing s with
  | nil => rfl
  | cons x l ih => obtain ⟨v, g⟩ := x; exact ih _
@[simp] theorem initLocals_nxO (l : List (Nat × (Obs Val Env → Val))) (s : St Val Env) : (initLocals l s).nxO = s.nxO := by
  induction l generalizing s with
  | nil => rfl
  | cons x l ih => obtain ⟨v, g⟩ := x; exact ih _
@[simp] theorem initLocals_nxF (l : List (Nat × (Obs Val Env → Val))) (s : St Val Env) : (initLocals l s).nxF = s.nxF := by
  induction l generalizing s with
  | nil => rfl
  | cons x l ih => obtain ⟨v, g⟩ := x; exact ih _
@[simp] theorem initLocals_q (l : List (Nat × (Obs Val Env → Val))) (s : St Val Env) : (initLocals l s).q = s.q := by
  induction l generalizing s with
  | nil => rfl
  | cons x l ih => obtain ⟨v, g⟩ := x; exact ih _
@[simp] theorem initLocals_saved (l : List (Nat × (Obs Val Env → Val))) (s : St Val Env) : (initLocals l s).saved = s.saved := by
  induction l generalizing s with
  | nil => rfl
  | cons x l ih => obtain ⟨v, g⟩ := x; exact ih _
@[simp] theorem initLocals_fixed (l : List (Nat × (Obs Val Env → Val))) (s : St Val Env) : (initLocals l s).fixed = s.fixed := by
  induction l generalizing s with
  | nil => rfl
  | cons x l ih => obtain ⟨v, g⟩ := x; exact ih _
@[simp] theorem initLocals_ack (l : List (Nat × (Obs Val Env → Val))) (s : St Val Env) : (initLocals l s).ack = s.ack := by
  induction l generalizing s with
  | nil => rfl
  | cons x l ih => obtain ⟨v, g⟩ := x; exact ih _
@[simp] theorem initLocals_abort (l : List (Nat × (Obs Val Env → Val))) (s : St Val Env) : (initLocals l s).abort = s.abort := by
  induction l generalizing s with
  | nil => rfl
  | cons x l ih => obtain ⟨v, g⟩ := x; exact ih _
@[simp] theorem initLocals_env (l : List (Nat × (Obs Val Env → Val))) (s : St Val Env) : (initLocals l s).env = s.env := by
  induction l generalizing s with
  | nil => rfl
  | cons x l ih => obtain ⟨v, g⟩ := x; exact ih _
@[simp] theorem initLocals_holder (l : List (Nat × (Obs Val Env → Val))) (s : St Val Env) : (initLocals l s).holder = s.holder := by
  induction l generalizing s with
  | nil => rfl
  | cons x l ih => obtain ⟨v, g⟩ := x; exact ih _
@[simp] theorem initLocals_waiters (l : List (Nat × (Obs Val Env → Val))) (s : St Val Env) : (initLocals l s).waiters = s.waiters := by
  induction l generalizing s with
  | nil => rfl
  | cons x l ih => obtain ⟨v, g⟩ := x; exact ih _
@[simp] theorem initLocals_cand (l : List (Nat × (Obs Val Env → Val))) (s : St Val Env) : (initLocals l s).cand = s.cand := by
  induction l generalizing s with
  | nil => rfl
  | cons x l ih => obtain ⟨v, g⟩ := x; exact ih _
@[simp] theorem initLocals_change (l : List (Nat × (Obs Val Env → Val))) (s : St Val Env) : (initLocals l s).change = s.change := by
  induction l generalizing s with
  | nil => rfl
  | cons x l ih => obtain ⟨v, g⟩ := x; exact ih _
@[simp] theorem initLocals_pending (l : List (Nat × (Obs Val Env → Val))) (s : St Val Env) : (initLocals l s).pending = s.pending := by
  induction l generalizing s with
  | nil => rfl
  | cons x l ih => obtain ⟨v, g⟩ := x; exact ih _
@[simp] theorem initLocals_asg (l : List (Nat × (Obs Val Env → Val))) (s : St Val Env) : (initLocals l s).asg = s.asg := by
  induction l generalizing s with
  | nil => rfl
  | cons x l ih => obtain ⟨v, g⟩ := x; exact ih _
@[simp] theorem initLocals_ret (l : List (Nat × (Obs Val Env → Val))) (s : St Val Env) : (initLocals l s).ret = s.ret := by
  induction l generalizing s with
  | nil => rfl
  | cons x l ih => obtain ⟨v, g⟩ := x; exact ih _
@[simp] theorem initLocals_cmds (l : List (Nat × (Obs Val Env → Val))) (s : St Val Env) : (initLocals l s).cmds = s.cmds := by
  induction l generalizing s with
  | nil => rfl
  | cons x l ih => obtain ⟨v, g⟩ := x; exact ih _
@[simp] theorem initLocals_aborts (l : List (Nat × (Obs Val Env → Val))) (s : St Val Env) : (initLocals l s).aborts = s.aborts := by
  induction l generalizing s with
  | nil => rfl
  | cons x l ih => obtain ⟨v, g⟩ := x; exact ih _
@[simp] theorem initLocals_upds (l : List (Nat × (Obs Val Env → Val))) (s : St Val Env) : (initLocals l s).upds = s.upds := by
  induction l generalizing s with
  | nil => rfl
  | cons x l ih => obtain ⟨v, g⟩ := x; exact ih _
@[simp] theorem initLocals_fin (l : List (Nat × (Obs Val Env → Val))) (s : St Val Env) : (initLocals l s).fin = s.fin := by
  induction l generalizing s with
  | nil => rfl
  | cons x l ih => obtain ⟨v, g⟩ := x; exact ih _
@[simp] theorem initLocals_err (l : List (Nat × (Obs Val Env → Val))) (s : St Val Env) : (initLocals l s).err = s.err := by
  induction l generalizing s with
  | nil => rfl
  | cons x l ih => obtain ⟨v, g⟩ := x; exact ih _
@[simp] theorem initLocals_log (l : List (Nat × (Obs Val Env → Val))) (s : St Val Env) : (initLocals l s).log = s.log := by
  induction l generalizing s with
  | nil => rfl
  | cons x l ih => obtain ⟨v, g⟩ := x; exact ih _
@[simp] theorem initLocals_base (l : List (Nat × (Obs Val Env → Val))) (s : St Val Env) : (initLocals l s).base = s.base := by
  induction l generalizing s with
  | nil => rfl
  | cons x l ih => obtain ⟨v, g⟩ := x; exact ih _

@[simp] theorem setOutcome_st (n : NodeId) (s : St Val Env) : (setOutcome n s).st = s.st := rfl
@[simp] theorem setOutcome_nx (n : NodeId) (s : St Val Env) : (setOutcome n s).nx = s.nx := rfl
@[simp] theorem setOutcome_nxO (n : NodeId) (s : St Val Env) : (setOutcome n s).nxO = s.nxO := rfl
@[simp] theorem setOutcome_nxF (n : NodeId) (s : St Val Env) : (setOutcome n s).nxF = s.nxF := rfl
@[simp] theorem setOutcome_q (n : NodeId) (s : St Val Env) : (setOutcome n s).q = s.q := rfl
@[simp] theorem setOutcome_vars (n : NodeId) (s : St Val Env) : (setOutcome n s).vars = s.vars := rfl
@[simp] theorem setOutcome_saved (n : NodeId) (s : St Val Env) : (setOutcome n s).saved = s.saved := rfl
@[simp] theorem setOutcome_fixed (n : NodeId) (s : St Val Env) : (setOutcome n s).fixed = s.fixed := rfl
@[simp] theorem setOutcome_ack (n : NodeId) (s : St Val Env) : (setOutcome n s).ack = s.ack := rfl
@[simp] theorem setOutcome_abort (n : NodeId) (s : St Val Env) : (setOutcome n s).abort = s.abort := rfl
@[simp] theorem setOutcome_env (n : NodeId) (s : St Val Env) : (setOutcome n s).env = s.env := rfl
@[simp] theorem setOutcome_holder (n : NodeId) (s : St Val Env) : (setOutcome n s).holder = s.holder := rfl
@[simp] theorem setOutcome_waiters (n : NodeId) (s : St Val Env) : (setOutcome n s).waiters = s.waiters := rfl
@[simp] theorem setOutcome_cand (n : NodeId) (s : St Val Env) : (setOutcome n s).cand = s.cand := rfl
@[simp] theorem setOutcome_change (n : NodeId) (s : St Val Env) : (setOutcome n s).change = s.change := rfl
@[simp] theorem setOutcome_pending (n : NodeId) (s : St Val Env) : (setOutcome n s).pending = s.pending := rfl
@[simp] theorem setOutcome_asg (n : NodeId) (s : St Val Env) : (setOutcome n s).asg = s.asg := rfl
@[simp] theorem setOutcome_ret (n : NodeId) (s : St Val Env) : (setOutcome n s).ret = s.ret := rfl
@[simp] theorem setOutcome_cmds (n : NodeId) (s : St Val Env) : (setOutcome n s).cmds = s.cmds := rfl
@[simp] theorem setOutcome_aborts (n : NodeId) (s : St Val Env) : (setOutcome n s).aborts = s.aborts := rfl
@[simp] theorem setOutcome_upds (n : NodeId) (s : St Val Env) : (setOutcome n s).upds = s.upds := rfl
@[simp] theorem setOutcome_fin (n : NodeId) (s : St Val Env) : (setOutcome n s).fin = s.fin := rfl
@[simp] theorem setOutcome_err (n : NodeId) (s : St Val Env) : (setOutcome n s).err = s.err := rfl
@[simp] theorem setOutcome_log (n : NodeId) (s : St Val Env) : (setOutcome n s).log = s.log := rfl
@[simp] theorem setOutcome_base (n : NodeId) (s : St Val Env) : (setOutcome n s).base = s.base := rfl

@[simp] theorem addFinishedRoot_st (n : NodeId) (s : St Val Env) : (addFinishedRoot n s).st = s.st := by
  unfold addFinishedRoot; split
  · rfl
  · split <;> rfl
@[simp] theorem addFinishedRoot_out (n : NodeId) (s : St Val Env) : (addFinishedRoot n s).out = s.out := by
  unfold addFinishedRoot; split
  · rfl
  · split <;> rfl
@[simp] theorem addFinishedRoot_fail (n : NodeId) (s : St Val Env) : (addFinishedRoot n s).fail = s.fail := by
  unfold addFinishedRoot; split
  · rfl
  · split <;> rfl
@[simp] theorem addFinishedRoot_nx (n : NodeId) (s : St Val Env) : (addFinishedRoot n s).nx = s.nx := by
  unfold addFinishedRoot; split
  · rfl
  · split <;> rfl
@[simp] theorem addFinishedRoot_nxO (n : NodeId) (s : St Val Env) : (addFinishedRoot n s).nxO = s.nxO := by
  unfold addFinishedRoot; split
  · rfl
  · split <;> rfl
@[simp] theorem addFinishedRoot_nxF (n : NodeId) (s : St Val Env) : (addFinishedRoot n s).nxF = s.nxF := by
  unfold addFinishedRoot; split
  · rfl
  · split <;> rfl
@[simp] theorem addFinishedRoot_vars (n : NodeId) (s : St Val Env) : (addFinishedRoot n s).vars = s.vars := by
  unfold addFinishedRoot; split
  · rfl
  · split <;> rfl
@[simp] theorem addFinishedRoot_saved (n : NodeId) (s : St Val Env) : (addFinishedRoot n s).saved = s.saved := by
  unfold addFinishedRoot; split
  · rfl
  · split <;> rfl
@[simp] theorem addFinishedRoot_fixed (n : NodeId) (s : St Val Env) : (addFinishedRoot n s).fixed = s.fixed := by
  unfold addFinishedRoot; split
  · rfl
  · split <;> rfl
@[simp] theorem addFinishedRoot_ack (n : NodeId) (s : St Val Env) : (addFinishedRoot n s).ack = s.ack := by
  unfold addFinishedRoot; split
  · rfl
  · split <;> rfl
@[simp] theorem addFinishedRoot_abort (n : NodeId) (s : St Val Env) : (addFinishedRoot n s).abort = s.abort := by
  unfold addFinishedRoot; split
  · rfl
  · split <;> rfl
@[simp] theorem addFinishedRoot_env (n : NodeId) (s : St Val Env) : (addFinishedRoot n s).env = s.env := by
  unfold addFinishedRoot; split
  · rfl
  · split <;> rfl
@[simp] theorem addFinishedRoot_holder (n : NodeId) (s : St Val Env) : (addFinishedRoot n s).holder = s.holder := by
  unfold addFinishedRoot; split
  · rfl
  · split <;> rfl
@[simp] theorem addFinishedRoot_waiters (n : NodeId) (s : St Val Env) : (addFinishedRoot n s).waiters = s.waiters := by
  unfold addFinishedRoot; split
  · rfl
  · split <;> rfl
@[simp] theorem addFinishedRoot_change (n : NodeId) (s : St Val Env) : (addFinishedRoot n s).change = s.change := by
  unfold addFinishedRoot; split
  · rfl
  · split <;> rfl
@[simp] theorem addFinishedRoot_pending (n : NodeId) (s : St Val Env) : (addFinishedRoot n s).pending = s.pending := by
  unfold addFinishedRoot; split
  · rfl
  · split <;> rfl
@[simp] theorem addFinishedRoot_asg (n : NodeId) (s : St Val Env) : (addFinishedRoot n s).asg = s.asg := by
  unfold addFinishedRoot; split
  · rfl
  · split <;> rfl
@[simp] theorem addFinishedRoot_ret (n : NodeId) (s : St Val Env) : (addFinishedRoot n s).ret = s.ret := by
  unfold addFinishedRoot; split
  · rfl
  · split <;> rfl
@[simp] theorem addFinishedRoot_cmds (n : NodeId) (s : St Val Env) : (addFinishedRoot n s).cmds = s.cmds := by
  unfold addFinishedRoot; split
  · rfl
  · split <;> rfl
@[simp] theorem addFinishedRoot_aborts (n : NodeId) (s : St Val Env) : (addFinishedRoot n s).aborts = s.aborts := by
  unfold addFinishedRoot; split
  · rfl
  · split <;> rfl
@[simp] theorem addFinishedRoot_upds (n : NodeId) (s : St Val Env) : (addFinishedRoot n s).upds = s.upds := by
  unfold addFinishedRoot; split
  · rfl
  · split <;> rfl
@[simp] theorem addFinishedRoot_log (n : NodeId) (s : St Val Env) : (addFinishedRoot n s).log = s.log := by
  unfold addFinishedRoot; split
  · rfl
  · split <;> rfl
@[simp] theorem addFinishedRoot_base (n : NodeId) (s : St Val Env) : (addFinishedRoot n s).base = s.base := by
  unfold addFinishedRoot; split
  · rfl
  · split <;> rfl

@[simp] theorem transFrom_st (n : NodeId) (a b : NState) (s : St Val Env) : (transFrom n a b s).st = s.st := by unfold transFrom; split <;> rfl
@[simp] theorem transFrom_nx (n : NodeId) (a b : NState) (s : St Val Env) : (transFrom n a b s).nx = s.nx := by unfold transFrom; split <;> rfl
@[simp] theorem transFrom_nxO (n : NodeId) (a b : NState) (s : St Val Env) : (transFrom n a b s).nxO = s.nxO := by unfold transFrom; split <;> rfl
@[simp] theorem transFrom_nxF (n : NodeId) (a b : NState) (s : St Val Env) : (transFrom n a b s).nxF = s.nxF := by unfold transFrom; split <;> rfl
@[simp] theorem transFrom_q (n : NodeId) (a b : NState) (s : St Val Env) : (transFrom n a b s).q = s.q := by unfold transFrom; split <;> rfl
@[simp] theorem transFrom_vars (n : NodeId) (a b : NState) (s : St Val Env) : (transFrom n a b s).vars = s.vars := by unfold transFrom; split <;> rfl
@[simp] theorem transFrom_saved (n : NodeId) (a b : NState) (s : St Val Env) : (transFrom n a b s).saved = s.saved := by unfold transFrom; split <;> rfl
@[simp] theorem transFrom_fixed (n : NodeId) (a b : NState) (s : St Val Env) : (transFrom n a b s).fixed = s.fixed := by unfold transFrom; split <;> rfl
@[simp] theorem transFrom_ack (n : NodeId) (a b : NState) (s : St Val Env) : (transFrom n a b s).ack = s.ack := by unfold transFrom; split <;> rfl
@[simp] theorem transFrom_abort (n : NodeId) (a b : NState) (s : St Val Env) : (transFrom n a b s).abort = s.abort := by unfold transFrom; split <;> rfl
@[simp] theorem transFrom_env (n : NodeId) (a b : NState) (s : St Val Env) : (transFrom n a b s).env = s.env := by unfold transFrom; split <;> rfl
@[simp] theorem transFrom_holder (n : NodeId) (a b : NState) (s : St Val Env) : (transFrom n a b s).holder = s.holder := by unfold transFrom; split <;> rfl
@[simp] theorem transFrom_waiters (n : NodeId) (a b : NState) (s : St Val Env) : (transFrom n a b s).waiters = s.waiters := by unfold transFrom; split <;> rfl
@[simp] theorem transFrom_cand (n : NodeId) (a b : NState) (s : St Val Env) : (transFrom n a b s).cand = s.cand := by unfold transFrom; split <;> rfl
@[simp] theorem transFrom_change (n : NodeId) (a b : NState) (s : St Val Env) : (transFrom n a b s).change = s.change := by unfold transFrom; split <;> rfl
@[simp] theorem transFrom_pending (n : NodeId) (a b : NState) (s : St Val Env) : (transFrom n a b s).pending = s.pending := by unfold transFrom; split <;> rfl
@[simp] theorem transFrom_asg (n : NodeId) (a b : NState) (s : St Val Env) : (transFrom n a b s).asg = s.asg := by unfold transFrom; split <;> rfl
@[simp] theorem transFrom_ret (n : NodeId) (a b : NState) (s : St Val Env) : (transFrom n a b s).ret = s.ret := by unfold transFrom; split <;> rfl
@[simp] theorem transFrom_cmds (n : NodeId) (a b : NState) (s : St Val Env) : (transFrom n a b s).cmds = s.cmds := by unfold transFrom; split <;> rfl
@[simp] theorem transFrom_aborts (n : NodeId) (a b : NState) (s : St Val Env) : (transFrom n a b s).aborts = s.aborts := by unfold transFrom; split <;> rfl
@[simp] theorem transFrom_upds (n : NodeId) (a b : NState) (s : St Val Env) : (transFrom n a b s).upds = s.upds := by unfold transFrom; split <;> rfl
@[simp] theorem transFrom_fin (n : NodeId) (a b : NState) (s : St Val Env) : (transFrom n a b s).fin = s.fin := by unfold transFrom; split <;> rfl
@[simp] theorem transFrom_err (n : NodeId) (a b : NState) (s : St Val Env) : (transFrom n a b s).err = s.err := by unfold transFrom; split <;> rfl
@[simp] theorem transFrom_log (n : NodeId) (a b : NState) (s : St Val Env) : (transFrom n a b s).log = s.log := by unfold transFrom; split <;> rfl
@[simp] theorem transFrom_base (n : NodeId) (a b : NState) (s : St Val Env) : (transFrom n a b s).base = s.base := by unfold transFrom; split <;> rfl

@[simp] theorem execBody_st (n : NodeId) (s : St Val Env) : (execBody P n s).st = s.st := by unfold execBody; split <;> rfl
@[simp] theorem execBody_out (n : NodeId) (s : St Val Env) : (execBody P n s).out = s.out := by unfold execBody; split <;> rfl
@[simp] theorem execBody_fail (n : NodeId) (s : St Val Env) : (execBody P n s).fail = s.fail := by unfold execBody; split <;> rfl
@[simp] theorem execBody_nx (n : NodeId) (s : St Val Env) : (execBody P n s).nx = s.nx := by unfold execBody; split <;> rfl
@[simp] theorem execBody_nxO (n : NodeId) (s : St Val Env) : (execBody P n s).nxO = s.nxO := by unfold execBody; split <;> rfl
@[simp] theorem execBody_nxF (n : NodeId) (s : St Val Env) : (execBody P n s).nxF = s.nxF := by unfold execBody; split <;> rfl
@[simp] theorem execBody_q (n : NodeId) (s : St Val Env) : (execBody P n s).q = s.q := by unfold execBody; split <;> rfl
@[simp] theorem execBody_vars (n : NodeId) (s : St Val Env) : (execBody P n s).vars = s.vars := by unfold execBody; split <;> rfl
@[simp] theorem execBody_ack (n : NodeId) (s : St Val Env) : (execBody P n s).ack = s.ack := by unfold execBody; split <;> rfl
@[simp] theorem execBody_abort (n : NodeId) (s : St Val Env) : (execBody P n s).abort = s.abort := by unfold execBody; split <;> rfl
@[simp] theorem execBody_holder (n : NodeId) (s : St Val Env) : (execBody P n s).holder = s.holder := by unfold execBody; split <;> rfl
@[simp] theorem execBody_waiters (n : NodeId) (s : St Val Env) : (execBody P n s).waiters = s.waiters := by unfold execBody; split <;> rfl
@[simp] theorem execBody_cand (n : NodeId) (s : St Val Env) : (execBody P n s).cand = s.cand := by unfold execBody; split <;> rfl
@[simp] theorem execBody_change (n : NodeId) (s : St Val Env) : (execBody P n s).change = s.change := by unfold execBody; split <;> rfl
@[simp] theorem execBody_pending (n : NodeId) (s : St Val Env) : (execBody P n s).pending = s.pending := by unfold execBody; split <;> rfl
@[simp] theorem execBody_ret (n : NodeId) (s : St Val Env) : (execBody P n s).ret = s.ret := by unfold execBody; split <;> rfl
@[simp] theorem execBody_aborts (n : NodeId) (s : St Val Env) : (execBody P n s).aborts = s.aborts := by unfold execBody; split <;> rfl
@[simp] theorem execBody_fin (n : NodeId) (s : St Val Env) : (execBody P n s).fin = s.fin := by unfold execBody; split <;> rfl
@[simp] theorem execBody_err (n : NodeId) (s : St Val Env) : (execBody P n s).err = s.err := by unfold execBody; split <;> rfl
@[simp] theorem execBody_log (n : NodeId) (s : St Val Env) : (execBody P n s).log = (activateBody P n s).log := by unfold execBody; split <;> rfl
@[simp] theorem execBody_base (n : NodeId) (s : St Val Env) : (execBody P n s).base = s.base := by unfold execBody; split <;> rfl

@[simp] theorem transTo_st (n : NodeId) (a b : NState) (s : St Val Env) : (transTo P n a b s).st = s.st := by
  unfold transTo; rw [releaseAll_st]; split
  · rw [initLocals_st]
  · split <;> rfl
  · rfl
@[simp] theorem transTo_out (n : NodeId) (a b : NState) (s : St Val Env) : (transTo P n a b s).out = s.out := by
  unfold transTo; rw [releaseAll_out]; split
  · rw [initLocals_out]
  · split <;> rfl
  · rfl
@[simp] theorem transTo_fail (n : NodeId) (a b : NState) (s : St Val Env) : (transTo P n a b s).fail = s.fail := by
  unfold transTo; rw [releaseAll_fail]; split
  · rw [initLocals_fail]
  · split <;> rfl
  · rfl
@[simp] theorem transTo_nx (n : NodeId) (a b : NState) (s : St Val Env) : (transTo P n a b s).nx = s.nx := by
  unfold transTo; rw [releaseAll_nx]; split
  · rw [initLocals_nx]
  · split <;> rfl
  · rfl
@[simp] theorem transTo_nxO (n : NodeId) (a b : NState) (s : St Val Env) : (transTo P n a b s).nxO = s.nxO := by
  unfold transTo; rw [releaseAll_nxO]; split
  · rw [initLocals_nxO]
  · split <;> rfl
  · rfl
@[simp] theorem transTo_nxF (n : NodeId) (a b : NState) (s : St Val Env) : (transTo P n a b s).nxF = s.nxF := by
  unfold transTo; rw [releaseAll_nxF]; split
  · rw [initLocals_nxF]
  · split <;> rfl
  · rfl
@[simp] theorem transTo_saved (n : NodeId) (a b : NState) (s : St Val Env) : (transTo P n a b s).saved = s.saved := by
  unfold transTo; rw [releaseAll_saved]; split
  · rw [initLocals_saved]
  · split <;> rfl
  · rfl
@[simp] theorem transTo_fixed (n : NodeId) (a b : NState) (s : St Val Env) : (transTo P n a b s).fixed = s.fixed := by
  unfold transTo; rw [releaseAll_fixed]; split
  · rw [initLocals_fixed]
  · split <;> rfl
  · rfl
@[simp] theorem transTo_env (n : NodeId) (a b : NState) (s : St Val Env) : (transTo P n a b s).env = s.env := by
  unfold transTo; rw [releaseAll_env]; split
  · rw [initLocals_env]
  · split <;> rfl
  · rfl
@[simp] theorem transTo_waiters (n : NodeId) (a b : NState) (s : St Val Env) : (transTo P n a b s).waiters = s.waiters := by
  unfold transTo; rw [releaseAll_waiters]; split
  · rw [initLocals_waiters]
  · split <;> rfl
  · rfl
@[simp] theorem transTo_cand (n : NodeId) (a b : NState) (s : St Val Env) : (transTo P n a b s).cand = s.cand := by
  unfold transTo; rw [releaseAll_cand]; split
  · rw [initLocals_cand]
  · split <;> rfl
  · rfl
@[simp] theorem transTo_change (n : NodeId) (a b : NState) (s : St Val Env) : (transTo P n a b s).change = s.change := by
  unfold transTo; rw [releaseAll_change]; split
  · rw [initLocals_change]
  · split <;> rfl
  · rfl
@[simp] theorem transTo_pending (n : NodeId) (a b : NState) (s : St Val Env) : (transTo P n a b s).pending = s.pending := by
  unfold transTo; rw [releaseAll_pending]; split
  · rw [initLocals_pending]
  · split <;> rfl
  · rfl
@[simp] theorem transTo_asg (n : NodeId) (a b : NState) (s : St Val Env) : (transTo P n a b s).asg = s.asg := by
  unfold transTo; rw [releaseAll_asg]; split
  · rw [initLocals_asg]
  · split <;> rfl
  · rfl
@[simp] theorem transTo_cmds (n : NodeId) (a b : NState) (s : St Val Env) : (transTo P n a b s).cmds = s.cmds := by
  unfold transTo; rw [releaseAll_cmds]; split
  · rw [initLocals_cmds]
  · split <;> rfl
  · rfl
@[simp] theorem transTo_upds (n : NodeId) (a b : NState) (s : St Val Env) : (transTo P n a b s).upds = s.upds := by
  unfold transTo; rw [releaseAll_upds]; split
  · rw [initLocals_upds]
  · split <;> rfl
  · rfl
@[simp] theorem transTo_fin (n : NodeId) (a b : NState) (s : St Val Env) : (transTo P n a b s).fin = s.fin := by
  unfold transTo; rw [releaseAll_fin]; split
  · rw [initLocals_fin]
  · split <;> rfl
  · rfl
@[simp] theorem transTo_err (n : NodeId) (a b : NState) (s : St Val Env) : (transTo P n a b s).err = s.err := by
  unfold transTo; rw [releaseAll_err]; split
  · rw [initLocals_err]
  · split <;> rfl
  · rfl
@[simp] theorem transTo_log (n : NodeId) (a b : NState) (s : St Val Env) : (transTo P n a b s).log = s.log := by
  unfold transTo; rw [releaseAll_log]; split
  · rw [initLocals_log]
  · split <;> rfl
  · rfl
@[simp] theorem transTo_base (n : NodeId) (a b : NState) (s : St Val Env) : (transTo P n a b s).base = s.base := by
  unfold transTo; rw [releaseAll_base]; split
  · rw [initLocals_base]
  · split <;> rfl
  · rfl

@[simp] theorem setState_out (n : NodeId) (b : NState) (s : St Val Env) : (setState P n b s).out = s.out := by
  unfold setState; rw [notifyAll_out]; split
  · rw [addFinishedRoot_out]
  · rfl
@[simp] theorem setState_fail (n : NodeId) (b : NState) (s : St Val Env) : (setState P n b s).fail = s.fail := by
  unfold setState; rw [notifyAll_fail]; split
  · rw [addFinishedRoot_fail]
  · rfl
@[simp] theorem setState_nx (n : NodeId) (b : NState) (s : St Val Env) : (setState P n b s).nx = s.nx := by
  unfold setState; rw [notifyAll_nx]; split
  · rw [addFinishedRoot_nx]
  · rfl
@[simp] theorem setState_nxO (n : NodeId) (b : NState) (s : St Val Env) : (setState P n b s).nxO = s.nxO := by
  unfold setState; rw [notifyAll_nxO]; split
  · rw [addFinishedRoot_nxO]
  · rfl
@[simp] theorem setState_nxF (n : NodeId) (b : NState) (s : St Val Env) : (setState P n b s).nxF = s.nxF := by
  unfold setState; rw [notifyAll_nxF]; split
  · rw [addFinishedRoot_nxF]
  · rfl
@[simp] theorem setState_vars (n : NodeId) (b : NState) (s : St Val Env) : (setState P n b s).vars = s.vars := by
  unfold setState; rw [notifyAll_vars]; split
  · rw [addFinishedRoot_vars]
  · rfl
@[simp] theorem setState_saved (n : NodeId) (b : NState) (s : St Val Env) : (setState P n b s).saved = s.saved := by
  unfold setState; rw [notifyAll_saved]; split
  · rw [addFinishedRoot_saved]
  · rfl
@[simp] theorem setState_fixed (n : NodeId) (b : NState) (s : St Val Env) : (setState P n b s).fixed = s.fixed := by
  unfold setState; rw [notifyAll_fixed]; split
  · rw [addFinishedRoot_fixed]
  · rfl
@[simp] theorem setState_ack (n : NodeId) (b : NState) (s : St Val Env) : (setState P n b s).ack = s.ack := by
  unfold setState; rw [notifyAll_ack]; split
  · rw [addFinishedRoot_ack]
  · rfl
@[simp] theorem setState_abort (n : NodeId) (b : NState) (s : St Val Env) : (setState P n b s).abort = s.abort := by
  unfold setState; rw [notifyAll_abort]; split
  · rw [addFinishedRoot_abort]
  · rfl
@[simp] theorem setState_env (n : NodeId) (b : NState) (s : St Val Env) : (setState P n b s).env = s.env := by
  unfold setState; rw [notifyAll_env]; split
  · rw [addFinishedRoot_env]
  · rfl
@[simp] theorem setState_holder (n : NodeId) (b : NState) (s : St Val Env) : (setState P n b s).holder = s.holder := by
  unfold setState; rw [notifyAll_holder]; split
  · rw [addFinishedRoot_holder]
  · rfl
@[simp] theorem setState_waiters (n : NodeId) (b : NState) (s : St Val Env) : (setState P n b s).waiters = s.waiters := by
  unfold setState; rw [notifyAll_waiters]; split
  · rw [addFinishedRoot_waiters]
  · rfl
@[simp] theorem setState_change (n : NodeId) (b : NState) (s : St Val Env) : (setState P n b s).change = s.change := by
  unfold setState; rw [notifyAll_change]; split
  · rw [addFinishedRoot_change]
  · rfl
@[simp] theorem setState_pending (n : NodeId) (b : NState) (s : St Val Env) : (setState P n b s).pending = s.pending := by
  unfold setState; rw [notifyAll_pending]; split
  · rw [addFinishedRoot_pending]
  · rfl
@[simp] theorem setState_asg (n : NodeId) (b : NState) (s : St Val Env) : (setState P n b s).asg = s.asg := by
  unfold setState; rw [notifyAll_asg]; split
  · rw [addFinishedRoot_asg]
  · rfl
@[simp] theorem setState_ret (n : NodeId) (b : NState) (s : St Val Env) : (setState P n b s).ret = s.ret := by
  unfold setState; rw [notifyAll_ret]; split
  · rw [addFinishedRoot_ret]
  · rfl
@[simp] theorem setState_cmds (n : NodeId) (b : NState) (s : St Val Env) : (setState P n b s).cmds = s.cmds := by
  unfold setState; rw [notifyAll_cmds]; split
  · rw [addFinishedRoot_cmds]
  · rfl
@[simp] theorem setState_aborts (n : NodeId) (b : NState) (s : St Val Env) : (setState P n b s).aborts = s.aborts := by
  unfold setState; rw [notifyAll_aborts]; split
  · rw [addFinishedRoot_aborts]
  · rfl
@[simp] theorem setState_upds (n : NodeId) (b : NState) (s : St Val Env) : (setState P n b s).upds = s.upds := by
  unfold setState; rw [notifyAll_upds]; split
  · rw [addFinishedRoot_upds]
  · rfl
@[simp] theorem setState_base (n : NodeId) (b : NState) (s : St Val Env) : (setState P n b s).base = s.base := by
  unfold setState; rw [notifyAll_base]; split
  · rw [addFinishedRoot_base]
  · rfl

theorem setState_st (n b) (s : St Val Env) : (setState P n b s).st = set s.st n b := by
  unfold setState; rw [notifyAll_st]; split
  · rw [addFinishedRoot_st]
  · rfl

theorem setState_log (n b) (s : St Val Env) : (setState P n b s).log = s.log ++ [.trans n (s.st n) b s.base] := by
  unfold setState; rw [notifyAll_log]; split
  · rw [addFinishedRoot_log]
  · rfl

end Verif.Exec
