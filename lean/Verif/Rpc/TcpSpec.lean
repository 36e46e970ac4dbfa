import Verif.Rpc.TcpModel

/-! # C73: specification -/

namespace NRK.Rpc.Tcp

/-- The length in the header is that of the payload. -/
def Msg.Proper (m : Msg) : Prop := m.hdr.len.toNat = m.payload.flatten.length

/-- What `recv_msg` must give for a message: header and payload as they were sent, the payload at the
beginning of the buffers and the rest of them as it was; or an error, if the buffers are too small. -/
def Delivers (m : Msg) : Got → Prop
  | .msg h orig bufs => h = m.hdr ∧ bufs.map List.length = orig.map List.length ∧
      bufs.flatten = m.payload.flatten ++ orig.flatten.drop m.payload.flatten.length
  | .tooLong h orig => h = m.hdr ∧ orig.flatten.length < m.payload.flatten.length

/-- The call of `recv_msg` returned a message. -/
def Got.isMsg : Got → Bool
  | .msg _ _ _ => true
  | .tooLong _ _ => false

/-- Steps other than new calls: what the network and the calls that are running do. -/
def Act.internal : Act → Bool
  | .push _ => true
  | .next => true
  | .poll _ => true
  | .pull _ => true
  | .full => true
  | _ => false

/-- Whatever the network and the running calls do, after finitely many steps `P` holds; until then they can
always do something. -/
inductive Inevitable (P : Dir → Prop) : Dir → Prop
  | now {d : Dir} (h : P d) : Inevitable P d
  | later {d : Dir} (h : ∃ a d', a.internal = true ∧ d.step a = some d')
      (h' : ∀ a d', a.internal = true → d.step a = some d' → Inevitable P d') : Inevitable P d

end NRK.Rpc.Tcp
