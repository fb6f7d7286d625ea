import Verif.Props.TwoServers
import Verif.Spec.Terms.StartExact

/-! # C17, exactly: what a freshly started server accepts -/

namespace Ruroco

open Spec (forwards onDisk Acceptable Seals SameHost RateOk)

theorem acted_iff_fresh {A : Aead} {s : Server} {src : Ip} {dg k : List Byte} {d : ClientData} {rd : Readings} {rl : RateLimiter} {now t v : U128} {cl : List (Option U128)} {ws ws' : World}
    {os : Out (Server × Except Err Unit)} (hwf : s.bl.Wf) (hl : s.bl.map.length < 2 ^ 32) (hok : AllOk ws) (hclk : ws.clock = some now :: some t :: cl)
    (hf : FineIfNew A s now.toNat src dg k d) (hrate : RateOk s src rd rl) (hv : s.bl.map.get k = some v) (hit : s.iteration A dg src rd ws = (os, ws')) :
    forwards ws'.log ≠ forwards ws.log ↔ v.toNat < d.counter.toNat := by
  obtain ⟨h, hg, hs⟩ := hf.sealed
  rw [(C15_forwards_iff_acceptable A s hwf hl dg src rd ws ws' os hok now t cl hclk hit).1]
  constructor
  · rintro ⟨_, d', hacc⟩
    obtain ⟨h2, hg2, pt2, e1, _, e2⟩ := hacc.sealed
    obtain ⟨pt, e1', _, e2'⟩ := hs
    rw [hf.names, hg] at hg2
    cases hg2
    rw [e1] at e1'
    cases e1'
    rw [e2] at e2'
    cases e2'
    obtain ⟨v', hv', hlt⟩ := hacc.fresh
    rw [hf.names, hv] at hv'
    cases hv'
    exact hlt
  · exact fun hlt => ⟨⟨rl, hrate⟩, d, hf.size, ⟨h, by rw [hf.names]; exact hg, hs⟩, ⟨v, by rw [hf.names]; exact hv, hlt⟩, hf.notFuture, hf.dst, hf.src⟩

/-- **C17, exactly.** After a start, a datagram that only its counter can stand against is acted on if and only if its counter is above the counter that was stored for its key when the server
started or, if none was stored, above the time of the start. So the documented rule (older than the start means rejected) is obeyed for a key exactly if it had no stored counter or one that is not
below the time of the start. -/
theorem C17_accepted_iff (A : Aead) (cfg : ServerCfg) (senv : StartEnv) (hord : ∀ m, (senv.order m).Perm m) (w w1 : World) (srv : Server) (hstart : Server.create cfg senv w = (.ok srv, w1))
    (hstat : .statFailed (blocklistPath cfg.blDir) ∉ w1.log) (hl : srv.bl.map.length < 2 ^ 32) :
    ∃ start, some start ∈ w.clock ∧
      ∀ (k dg : List Byte) (d : ClientData) (src : Ip) (rd : Readings) (rl : RateLimiter) (now t : U128) (cl : List (Option U128)) (ws ws' : World) (os : Out (Server × Except Err Unit)),
        FineIfNew A srv now.toNat src dg k d → RateOk srv src rd rl → AllOk ws → ws.clock = some now :: some t :: cl → srv.iteration A dg src rd ws = (os, ws') →
        (forwards ws'.log ≠ forwards ws.log ↔ ((onDisk w (blocklistPath cfg.blDir) k).getD start).toNat < d.counter.toNat) := by
  obtain ⟨_, hx, _⟩ := C16_start_preserves_counters_partial cfg senv hord w w1 _ hstart hstat
  obtain ⟨h1, floor, hfl, h2⟩ := hx srv rfl
  obtain ⟨_, _, _, hwf, _⟩ := (created_of_step hord hstart).ok srv rfl
  refine ⟨floor, hfl, ?_⟩
  intro k dg d src rd rl now t cl ws ws' os hf hrate hok hclk hit
  obtain ⟨h, hg, _⟩ := hf.sealed
  have hv : srv.bl.map.get k = some ((onDisk w (blocklistPath cfg.blDir) k).getD floor) := by
    cases hd : onDisk w (blocklistPath cfg.blDir) k with
    | some v => exact h1 k v hd
    | none => exact (h2 k (List.mem_map.2 ⟨_, handlers_mem_of_get hg, rfl⟩) hd).1
  exact acted_iff_fresh hwf hl hok hclk hf hrate hv hit

/-! ## Concrete case: the restart of `C17_older_than_start_accepted` -/

def exRe0 : World := ([exStart 1000 [], .kill].foldl (exec toyAead) ⟨exEmpty, none⟩).w.withEnv ⟨[], [some 9000, some 9000, some 9000]⟩ []
def exRe : Out Server × World := Server.create { exServer.cfg with maxPerIp := 10 } ⟨exDir, id, true, 0⟩ exRe0
def exReSrv : Server := outD exRe.1 exServer
theorem exRe_ok : exRe.1.isOk = true := by decide +kernel
theorem exRe_disk : onDisk exRe0 (blocklistPath "/s".toList) exKey.id = some 1000 := by decide +kernel
theorem exRe_quiet : .statFailed (blocklistPath "/s".toList) ∉ exRe.2.log := by decide +kernel
theorem exRe_len : exReSrv.bl.map.length < 2 ^ 32 := by decide +kernel
theorem exRe_rate : (exReSrv.rl.check (normalizeIp (.v4 0x0a000001)) exReSrv.cfg.maxPerIp exReSrv.cfg.maxGlobal exReadings).1.isOk = true := by decide +kernel
theorem exRe_fine : FineIfNew toyAead exReSrv (9100 : U128).toNat (.v4 0x0a000001) (exSealed 5000) exKey.id { exRequest with counter := 5000 } where
  size := by decide +kernel
  names := by decide +kernel
  sealed := ⟨exKey, by decide +kernel, ({ exRequest with counter := 5000 } : ClientData).serialize, by decide +kernel, by decide +kernel, by decide +kernel⟩
  notFuture := by decide +kernel
  dst := by decide +kernel
  src := by
    intro _ ip hip
    cases hip
    unfold SameHost Spec.IsMappedOf
    decide +kernel

/-- The server restarted at 9000 acts on the counter 5000, as 1000 was stored. -/
example : forwards (exReSrv.iteration toyAead (exSealed 5000) (.v4 0x0a000001) exReadings ((exEmpty.withEnv ⟨[], [some 9100, some 9100]⟩ []))).2.log ≠ [] := by
  obtain ⟨start, _, h⟩ := C17_accepted_iff toyAead { exServer.cfg with maxPerIp := 10 } ⟨exDir, id, true, 0⟩ (fun _ => .refl _) exRe0 exRe.2 exReSrv (eq_ok_of_isOk _ exRe_ok) exRe_quiet exRe_len
  obtain ⟨os, ws', hit⟩ : ∃ os ws', exReSrv.iteration toyAead (exSealed 5000) (.v4 0x0a000001) exReadings ((exEmpty.withEnv ⟨[], [some 9100, some 9100]⟩ [])) = (os, ws') := by
    generalize exReSrv.iteration toyAead (exSealed 5000) (.v4 0x0a000001) exReadings _ = x
    exact ⟨x.1, x.2, rfl⟩
  obtain ⟨rl, hr⟩ : ∃ rl, RateOk exReSrv (.v4 0x0a000001) exReadings rl := by
    have := exRe_rate
    unfold RateOk
    generalize exReSrv.rl.check _ _ _ _ = x at this
    obtain ⟨a, rl⟩ := x
    cases a with
    | ok u => exact ⟨rl, rfl⟩
    | error e => cases this
  have := h exKey.id _ _ _ exReadings rl 9100 9100 [] _ ws' os exRe_fine hr (fun c hc => nomatch (show c ∈ ([] : List Choice) from hc)) rfl hit
  rw [hit]
  exact this.2 (by
    rw [show ({ exServer.cfg with maxPerIp := 10 } : ServerCfg).blDir = "/s".toList from rfl, exRe_disk]
    show (1000 : U128).toNat < (5000 : U128).toNat
    decide)

end Ruroco
