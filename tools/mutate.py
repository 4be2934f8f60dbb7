#!/usr/bin/env python3
"""Mutation harness. Usage: mutate.py MUTANTS.py RESULTS.jsonl
MUTANTS.py defines M = [(file, definition, old, nth, new, edit, claim, [targets])].
Works in the scratch copy /tmp/mut/lean (copied from /verif/lean with its build products),
never in /verif. For each mutant: edit inside the named definition, lake build the targets, list the
declarations with errors (line -> enclosing declaration) and the Props theorems that depend on them."""
import sys, os, re, subprocess, json, shutil
S="/tmp/mut/lean"
def sync():
    subprocess.run(["rsync","-a","--delete","/verif/lean/",S+"/"],check=True) if shutil.which("rsync") else \
      (shutil.rmtree(S,ignore_errors=True), subprocess.run(["cp","-a","/verif/lean",S],check=True))
DECL=re.compile(r'^\s*(?:@\[[^\]]*\]\s*)?(?:private |protected |noncomputable )*(theorem|lemma|def|example|instance|abbrev|structure|inductive)\s+(\S+)?')
def decl_at(path,line):
    ls=open(path).read().split("\n")
    for i in range(min(line,len(ls))-1,-1,-1):
        m=DECL.match(ls[i])
        if m: return (m.group(2) or "?").rstrip(":") if m.group(1)!="example" else "example"
    return "?"
def deps():
    f="/tmp/mut/deps.json"
    return json.load(open(f)) if os.path.exists(f) else {}
def main():
    ns={}; exec(open(sys.argv[1]).read(),ns); out=sys.argv[2]
    done=set()
    if os.path.exists(out):
        for l in open(out):
            j=json.loads(l); done.add((j["definition"],j["edit"]))
    sync(); D=deps()
    for (file,d,old,nth,new,edit,claim,targets) in ns["M"]:
        if (d,edit) in done: continue
        p=os.path.join(S,"Verif",file); src=open(p).read()
        m=re.search(r'(?m)^(?:@\[[^\]]*\]\s*)?(?:noncomputable )?(?:def|abbrev) '+re.escape(d)+r'\b',src)
        if not m: print("NO DEF",d); continue
        n=re.search(r'\n\n',src[m.start():]); e=m.start()+(n.start() if n else len(src))
        body=src[m.start():e]; pos=-1
        for _ in range(nth):
            pos=body.find(old,pos+1)
            if pos<0: break
        if pos<0: print("NO OCC",d,old,nth); continue
        open(p,"w").write(src[:m.start()]+body[:pos]+new+body[pos+len(old):]+src[e:])
        r=subprocess.run(["nice","-n","10","lake","build"]+["Verif."+t for t in targets],cwd=S,capture_output=True,text=True)
        o=r.stdout+r.stderr; failed=[]
        for mm in re.finditer(r'error: (?:\./)?(Verif/\S+\.lean):(\d+):\d+',o):
            x=mm.group(1)[6:-5].replace("/",".")+"."+decl_at(os.path.join(S,mm.group(1)),int(mm.group(2)))
            if x not in failed: failed.append(x)
        short=set(x.split(".")[-1] for x in failed)
        props=sorted(t for t,u in D.items() if short & (set(u)|{t}))
        rec=dict(definition=d,edit=edit,claim=claim,build_ok=(r.returncode==0),failed=failed,theorems_failed=props)
        open(out,"a").write(json.dumps(rec)+"\n"); print(json.dumps(rec)[:400],flush=True)
        open(p,"w").write(src)
main()
