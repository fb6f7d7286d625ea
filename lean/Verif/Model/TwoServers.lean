import Verif.Model.History

/-!
# A second server process started on the same state directory

Nothing in `Server::create` (/repo/src/server/listener.rs:40-58) prevents it: there is no lock, and the UDP socket is bound last. Here
the start is cut in two at the point between reading and writing the replay-state file, so that the other process can run in between.
-/

namespace Ruroco

/-- /repo/src/server/blocklist.rs:31-45: `Blocklist::create` up to, but not including, the `save`. -/
def Blocklist.load (dir : Path) (order : BlMap → BlMap) : Act Blocklist := do
  if ← pathExists (blocklistPath dir) then
    let bytes ← readFile (blocklistPath dir)
    match decodeBl bytes with
    | some map => pure { map, path := blocklistPath dir, order : Blocklist }
    | none => Act.throw .parse
  else
    pure { map := [], path := blocklistPath dir, order : Blocklist }

/-- listener.rs:41-43 up to the read of the replay-state file. -/
def Server.createRead (cfg : ServerCfg) (env : StartEnv) : Act (Handlers × Blocklist) := do
  let handlers ← Act.ofExcept (createCryptoHandlers env.dir)
  let bl ← Blocklist.load cfg.blDir env.order
  pure (handlers, bl)

/-- The rest of `create`: blocklist.rs:46-48, listener.rs:44-57. -/
def Server.createWrite (cfg : ServerCfg) (env : StartEnv) (handlers : Handlers) (bl : Blocklist) : Act Server := do
  bl.save
  let floor ← nowNanos
  let bl := handlers.foldl (fun b h => b.seedIfAbsent h.1 floor) bl
  bl.save
  if env.bindOk then
    pure { cfg, handlers, bl, rl := RateLimiter.new env.mono, throttle := ⟨none, 0⟩ }
  else Act.throw .io

end Ruroco
