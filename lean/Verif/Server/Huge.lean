import Verif.Server.Migrate
import Verif.Wire.Frame

/-!
# C49: replies of 4 GiB

The size of a message is a field of 32 bits (`lib/tran_sock.c:87-89` adds the header to the length of the reply without a check).
A read of migration data is the one request that makes a reply of that size: its limit is what the client announced, and an
announced limit of -1, or of 2^32 - 1, is kept as 2^64 - 1 (`lib/tran.c:106-116`). -/

namespace Verif.Wire

/-- C49: a body that does not fit: the reply counts as sent as soon as the few bytes are out that the size field names. -/
theorem C49_wraps (snd : Send) (req : Hdr) (hr : req.Fits) (body : List Byte) (h1 : U32 ≤ 16 + body.length)
    (h2 : 16 + body.length < 2 * U32) {n : Nat} (hs : snd (16 + body.length) = .ok n) (hn : 16 + body.length - U32 ≤ n)
    (h16 : 16 ≤ n) : ∃ w, reply snd req (.bytes body) [] 0 = (.ok (), [w]) ∧ w.bytes.length = min n (16 + body.length) ∧
      (Hdr.ofBytes w.bytes).size = 16 + body.length - U32 := by
  have hsz : (mkHdr req.id req.cmd true body.length 0).size = 16 + body.length - U32 := by
    simp only [mkHdr, HDR]
    rw [Nat.mod_eq_sub_mod h1, Nat.mod_eq_of_lt (by omega)]
  have hb : (mkHdr req.id req.cmd true body.length 0).bytes.length = 16 := Hdr.bytes_length _
  have hf := mkHdr_fits req.id req.cmd true body.length 0 hr.id hr.cmd (by decide)
  refine ⟨{ bytes := ((mkHdr req.id req.cmd true body.length 0).bytes ++ body).take n, fds := [] }, ?_, ?_, ?_⟩
  · unfold reply sendIovec
    dsimp only [Body.len]
    unfold sendIovec.go
    rw [if_neg (by simp)]
    dsimp only
    rw [List.length_append, hb, hs]
    dsimp only
    rw [hsz, if_neg (by omega)]
    rfl
  · simp [hb]
  · have : ((mkHdr req.id req.cmd true body.length 0).bytes ++ body).take n =
        (mkHdr req.id req.cmd true body.length 0).bytes ++ body.take (n - 16) := by
      rw [List.take_append, hb, List.take_of_length_le (by omega)]
    dsimp only
    rw [this, Hdr.ofBytes_bytes _ hf, hsz]

end Verif.Wire

namespace Verif.Server
open Verif

/-- The client announced no limit and asks for all bytes there could be. -/
def askAll (id : Nat) : Msg := ⟨{ id, cmd := 17, size := 24, flags := 0, err := 0 }, enc 4 (U32 - 1) ++ enc 4 (U32 - 9), []⟩

/-- C49: in the pre-copy state, without a limit on transfers, a device that has no byte to give gets a buffer of 4 GiB, and the
reply to a request of 24 bytes has a body of 2^32 - 1 bytes under a header that claims 15 bytes in all. -/
theorem C49_huge (cfg : Cfg) (env : Env) (ha : env.alloc = true) (hd : env.readData (U32 - 9) = .ret 0 []) (st : St)
    (hm : st.mig = some 6) (hx : U32 - 9 ≤ st.maxXfer) (id : Nat) (hid : id < 65536)
    (hs : ∀ n, env.snd n = .ok (min n 0x7ffff000)) :
    ∃ l w, (exec cfg env st (askAll id)).res = .ok () ∧ (exec cfg env st (askAll id)).out = .bytes l ∧ l.length = U32 - 1 ∧
      Wire.reply env.snd (askAll id).hdr (.bytes l) [] 0 = (.ok (), [w]) ∧ (Wire.Hdr.ofBytes w.bytes).size = 15 ∧
      w.bytes.length = 0x7ffff000 := by
  have hl : (askAll id).body.length = 8 := rfl
  have h0 : leAt (askAll id).body 0 4 = U32 - 1 := by simp only [askAll]; decide +kernel
  have h4 : leAt (askAll id).body 4 4 = U32 - 9 := by simp only [askAll]; decide +kernel
  have hA : Mig.ReadAllowed st.mig st.maxXfer (askAll id).body := by
    refine ⟨by rw [hl], ⟨.preCopy, rfl, by rw [hm]; rfl⟩, by rw [h4]; exact hx, ?_⟩
    rw [h0, h4]; decide
  obtain ⟨l, g1, _, _, _, g5⟩ := Mig.C23_read_reply env.readData st.mig st.maxXfer (askAll id).body hA 0 []
    (by rw [h4]; exact hd) (Nat.zero_le _) (Nat.le_refl _)
  rw [hl, h4] at g5
  have g5 : l.length = U32 - 1 := by rw [g5]; decide
  have hex : exec cfg env st (askAll id) = migRead env st (askAll id).body [] := exec_migRead rfl
  obtain ⟨w, e1, e2, e3⟩ := Wire.C49_wraps env.snd (askAll id).hdr ⟨hid, (by show 17 < 65536; decide), (by show 24 < U32; decide),
      (by show 0 < U32; decide), (by show 0 < U32; decide)⟩ l
    (by rw [g5]; decide) (by rw [g5]; decide) (n := 0x7ffff000) (by rw [hs, g5]; decide) (by rw [g5]; decide) (by decide)
  refine ⟨l, w, ?_, ?_, g5, e1, ?_, ?_⟩
  · rw [hex]; unfold migRead; rw [ha]; dsimp only [Done.pure]; rw [g1]; rfl
  · rw [hex]; unfold migRead; rw [ha]; dsimp only [Done.pure]; rw [g1]
  · rw [e3, g5]; decide
  · rw [e2, g5]; decide

/-- A state with no limit is reached by a client that announces -1 for it. -/
example : (run Demo.cfg (init Demo.cfg true none Demo.pci) [.attach (.ok { maxFds := 8, maxXfer := U64 - 1, pgsize := 4096 }),
    .run Demo.env (Demo.req 1 16 0 (Demo.stateBody 6) [])]).1.maxXfer = U64 - 1 ∧ Wire.toSize (Wire.int32 (-1)) = U64 - 1 ∧
    Wire.toSize (Wire.int32 (2 ^ 32 - 1)) = U64 - 1 := by decide +kernel

end Verif.Server
