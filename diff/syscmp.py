import sys, subprocess, sysgen, sysport, collections
a,b=int(sys.argv[1]),int(sys.argv[2])
p=subprocess.Popen(['/tmp/sdiff/runner'],stdin=subprocess.PIPE,stdout=subprocess.PIPE,text=True)
st=collections.Counter(); bad=0
for seed in range(a,b):
    mode,spec,sizes,segs=sysgen.G(seed).job()
    try: want=sysport.run(mode,spec,sizes,segs)
    except sysport.Skip: st['skip']+=1; continue
    p.stdin.write('|'.join([mode,spec,' '.join(map(str,sizes)),';'.join(x+('e' if e=='eof' else 'p') for x,e in segs)])+'\n'); p.stdin.flush()
    got=[]
    while True:
        l=p.stdout.readline()
        if not l: print('runner died',seed); sys.exit(1)
        l=l.rstrip('\n')
        if l=='END': break
        got.append(l)
    st['lines']+=len(want); st[mode]+=1
    for x in want:
        y=x.rsplit(')',1)[-1].split()
        st[x if len(x)==1 else 'e:'+next((t for t in y if t in('-','eof','ueof','eop','nosync','prefix','marker','stuff','usc')),'?')]+=1
    if want!=got:
        bad+=1; print('DIFF',seed,mode,spec,len(want),len(got))
        for i,(x,y) in enumerate(zip(want,got)):
            if x!=y: print(' ',i,'\n',x[-300:],'\n',y[-300:]); break
        if bad>10: break
print(dict(st),'bad',bad)
